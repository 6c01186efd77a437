import Mathlib.Tactic.NormNum
import Mathlib.Tactic.Linarith
import Mathlib.Data.List.Perm.Basic
import Mathlib.Data.Rat.Defs
import Mathlib.Algebra.Order.Ring.Rat
import Mathlib.Algebra.Order.Archimedean.Basic
import Verif.Model.Products
import Verif.Spec.Products
import Verif.Lemmas.Zeros
/-
C50 product ranges, C51 zero estimation, C57 penetration.
-/
namespace Conmech

section C50

variable {K : Type} [LinearOrder K] {V : Type}

theorem dictDel_filter {key : K} : ∀ {d : List (K × V)}, Spec.DistinctKeys d → key ∈ d.map Prod.fst →
    dictDel key d = some (d.filter fun e => e.1 ≠ key)
  | [], _, h => by simp at h
  | (k, v) :: rest, hd, h => by
    have hd' := List.nodup_cons.mp hd
    by_cases hk : k = key
    · subst hk
      have : rest.filter (fun e => decide (e.1 ≠ k)) = rest := by
        apply List.filter_eq_self.mpr
        intro e he
        have : e.1 ≠ k := fun h => hd'.1 (List.mem_map.mpr ⟨e, he, h⟩)
        simpa using this
      simp only [dictDel, if_true]
      rw [List.filter_cons_of_neg (by simp), this]
    · have hmem : key ∈ rest.map Prod.fst := by
        simpa [Ne.symm hk] using h
      simp only [dictDel, hk, if_false]
      rw [dictDel_filter (d := rest) hd'.2 hmem, List.filter_cons_of_pos (by simpa using hk)]
      rfl

omit [LinearOrder K] in
theorem distinctKeys_filter {d : List (K × V)} (q : K × V → Bool) (h : Spec.DistinctKeys d) :
    Spec.DistinctKeys (d.filter q) := by
  unfold Spec.DistinctKeys at *
  exact h.sublist (List.filter_sublist.map Prod.fst)

theorem range_fold (start stop : K) : ∀ (keys : List K) (r : Product K V), keys.Nodup →
    (∀ k ∈ keys, k ∈ r.data.map Prod.fst) → Spec.DistinctKeys r.data →
    keys.foldlM (fun (result : Product K V) key =>
      if key ≤ start ∨ stop < key then
        (dictDel key result.data).map fun d => { result with data := d }
      else some result) r =
    some { r with data := r.data.filter fun e =>
      ¬ (e.1 ∈ keys ∧ (e.1 ≤ start ∨ stop < e.1)) }
  | [], r, _, _, _ => by simp
  | key :: keys, r, hn, hmem, hd => by
    have hn' := List.nodup_cons.mp hn
    rw [List.foldlM_cons]
    by_cases hk : key ≤ start ∨ stop < key
    · simp only [hk, if_true]
      rw [dictDel_filter hd (hmem key (by simp))]
      simp only [Option.map_some, Option.bind_eq_bind, Option.bind_some]
      rw [range_fold start stop keys _ hn'.2]
      · simp only [List.filter_filter, Option.some.injEq, Product.mk.injEq, true_and]
        apply List.filter_congr
        intro e _
        by_cases he : e.1 = key
        · simp [he, hk]
        · simp [he]
      · intro k hk'
        have hne : k ≠ key := fun h => hn'.1 (h ▸ hk')
        obtain ⟨e, he, rfl⟩ := List.mem_map.mp (hmem k (List.mem_cons_of_mem _ hk'))
        exact List.mem_map_of_mem (List.mem_filter.mpr ⟨he, by simpa using hne⟩)
      · exact distinctKeys_filter _ hd
    · simp only [hk, if_false, Option.bind_eq_bind, Option.bind_some]
      rw [range_fold start stop keys _ hn'.2 (fun k hk' => hmem k (List.mem_cons_of_mem _ hk')) hd]
      simp only [Option.some.injEq, Product.mk.injEq, true_and]
      apply List.filter_congr
      intro e _
      by_cases he : e.1 = key
      · simp [he, hk]
      · simp [he]

/-- What `range` returns. -/
theorem range_eq (p : Product K V) (start stop : K) (h : Spec.DistinctKeys p.data) :
    p.range start stop =
      some { name := p.name, rule := none,
             data := p.data.filter fun e => decide (start < e.1 ∧ e.1 ≤ stop) } := by
  unfold Product.range
  rw [range_fold start stop _ p.copy h (fun k hk => hk) h]
  simp only [Product.copy, Option.some.injEq, Product.mk.injEq, true_and]
  apply List.filter_congr
  intro e he
  have : e.1 ∈ p.data.map Prod.fst := List.mem_map_of_mem he
  simp only [this, true_and, not_or, not_le, not_lt]

/-- C50: the restriction succeeds, keeps the name and the order, and keeps exactly the entries later
than `start` and not later than `stop`. -/
theorem C50_range (p : Product K V) (start stop : K) (h : Spec.DistinctKeys p.data) :
    ∃ r, p.range start stop = some r ∧ r.name = p.name ∧ r.data.Sublist p.data ∧
      Spec.DistinctKeys r.data ∧
      ∀ e, e ∈ r.data ↔ e ∈ p.data ∧ start < e.1 ∧ e.1 ≤ stop := by
  refine ⟨_, range_eq p start stop h, rfl, List.filter_sublist, distinctKeys_filter _ h, ?_⟩
  intro e
  simp [List.mem_filter]

/-- C50: ranges over adjacent intervals partition the entries of the range over the union. -/
theorem C50_adjacent (p : Product K V) {a b c : K} (h : Spec.DistinctKeys p.data) (hab : a ≤ b)
    (hbc : b ≤ c) :
    ∃ r s t, p.range a b = some r ∧ p.range b c = some s ∧ p.range a c = some t ∧
      (r.data ++ s.data).Perm t.data ∧ ∀ e ∈ r.data, e ∉ s.data := by
  refine ⟨_, _, _, range_eq p a b h, range_eq p b c h, range_eq p a c h, ?_, ?_⟩
  · simp only
    clear h
    induction p.data with
    | nil => simp
    | cons e rest ih =>
      by_cases h1 : a < e.1 ∧ e.1 ≤ b
      · have h2 : ¬ (b < e.1 ∧ e.1 ≤ c) := fun h => absurd h.1 (not_lt.mpr h1.2)
        have h3 : a < e.1 ∧ e.1 ≤ c := ⟨h1.1, h1.2.trans hbc⟩
        simp only [List.filter_cons, decide_eq_true h1, decide_eq_false h2, decide_eq_true h3,
          if_true, Bool.false_eq_true, if_false, List.cons_append]
        exact ih.cons e
      · by_cases h2 : b < e.1 ∧ e.1 ≤ c
        · have h3 : a < e.1 ∧ e.1 ≤ c := ⟨hab.trans_lt h2.1, h2.2⟩
          simp only [List.filter_cons, decide_eq_false h1, decide_eq_true h2, decide_eq_true h3,
            if_true, Bool.false_eq_true, if_false]
          exact List.perm_middle.trans (ih.cons e)
        · have h3 : ¬ (a < e.1 ∧ e.1 ≤ c) := by
            rintro ⟨h4, h5⟩
            rcases le_or_gt e.1 b with h6 | h6
            · exact h1 ⟨h4, h6⟩
            · exact h2 ⟨h6, h5⟩
          simp only [List.filter_cons, decide_eq_false h1, decide_eq_false h2, decide_eq_false h3,
            Bool.false_eq_true, if_false]
          exact ih
  · intro e he hs
    simp only [List.mem_filter, decide_eq_true_eq] at he hs
    exact absurd hs.2.1 (not_lt.mpr he.2.2)

/-- C50: a range of a range is the range over the intersection. -/
theorem C50_nested (p : Product K V) (a b c d : K) (h : Spec.DistinctKeys p.data) :
    ∃ r s, p.range a b = some r ∧ r.range c d = some s ∧
      p.range (max a c) (min b d) = some s := by
  refine ⟨_, _, range_eq p a b h, range_eq _ c d (distinctKeys_filter _ h), ?_⟩
  rw [range_eq p _ _ h]
  simp only [Option.some.injEq, Product.mk.injEq, true_and, List.filter_filter]
  apply List.filter_congr
  intro e _
  simp only [max_lt_iff, le_min_iff, ← Bool.decide_and, decide_eq_decide]
  tauto

/-- C50: a range that ends before it begins is empty. -/
theorem C50_empty (p : Product K V) {a b : K} (h : Spec.DistinctKeys p.data) (hab : b ≤ a) :
    ∃ r, p.range a b = some r ∧ r.data = [] := by
  refine ⟨_, range_eq p a b h, ?_⟩
  simp only [List.filter_eq_nil_iff, decide_eq_true_eq, not_and, not_le]
  intro e _ h1
  exact hab.trans_lt h1

example : ∃ r, (⟨"p", none, [(0, 5), (1, 6), (2, 7), (3, 8)]⟩ : Product ℕ ℕ).range 0 2 = some r ∧
    r.data = [(1, 6), (2, 7)] := ⟨_, rfl, rfl⟩

example : Spec.DistinctKeys [(0, 5), (1, 6), (2, 7), ((3 : ℕ), 8)] := by
  simp [Spec.DistinctKeys]

end C50

section C57

variable {K : Type} [Field K] [LinearOrder K] {V E : Type}

theorem npMin_mem : ∀ (x : K) (l : List K), npMin x l ∈ x :: l
  | x, [] => by simp [npMin]
  | x, y :: rest => by
    have := npMin_mem (min x y) rest
    simp only [npMin, List.mem_cons] at this ⊢
    rcases this with h | h
    · rcases min_choice x y with h' | h' <;> rw [h'] at h <;> simp [h, h']
    · exact Or.inr (Or.inr h)

theorem npMin_le : ∀ (x : K) (l : List K), ∀ y ∈ x :: l, npMin x l ≤ y
  | x, [] => by simp [npMin]
  | x, y :: rest => by
    intro z hz
    have h := npMin_le (min x y) rest
    simp only [npMin]
    rcases List.mem_cons.mp hz with rfl | hz
    · exact (h (min z y) (by simp)).trans (min_le_left _ _)
    · rcases List.mem_cons.mp hz with rfl | hz
      · exact (h (min x z) (by simp)).trans (min_le_right _ _)
      · exact h z (by simp [hz])

/-- C57: the recorded value is the least vertical position of the contact nodes. -/
theorem C57_value (contactNodes : ℕ) (s : Snapshot K) (h : 0 < contactNodes) :
    Spec.LeastOf contactNodes (fun i => s.displacedNodes i 1)
      (penetrationValue contactNodes s) := by
  have hne : (List.range contactNodes).map (fun i => s.displacedNodes i 1) ≠ [] := by
    simp; omega
  obtain ⟨x, rest, hx⟩ := List.exists_cons_of_ne_nil hne
  have hv : penetrationValue contactNodes s = npMin x rest := by
    simp [penetrationValue, hx]
  have hmem : ∀ y, y ∈ x :: rest ↔ ∃ i, i < contactNodes ∧ s.displacedNodes i 1 = y := by
    intro y; rw [← hx]; simp
  rw [hv]
  refine ⟨(hmem _).mp (npMin_mem x rest), fun i hi => npMin_le x rest _ ((hmem _).mpr ⟨i, hi, rfl⟩)⟩

/-- C57: without contact nodes zero is recorded. -/
theorem C57_no_contact (s : Snapshot K) : penetrationValue 0 s = 0 := rfl

theorem mem_dictSet {key : K} {value : V} : ∀ {d : List (K × V)}, Spec.DistinctKeys d →
    ∀ e, e ∈ dictSet key value d ↔ e = (key, value) ∨ e ∈ d ∧ e.1 ≠ key
  | [], _, e => by simp [dictSet]
  | (k, v) :: rest, h, e => by
    have h' := List.nodup_cons.mp h
    by_cases hk : k = key
    · subst hk
      simp only [dictSet, if_true, List.mem_cons]
      constructor
      · rintro (h1 | h1)
        · exact Or.inl h1
        · exact Or.inr ⟨Or.inr h1, fun h2 => h'.1 (List.mem_map.mpr ⟨e, h1, h2⟩)⟩
      · rintro (h1 | ⟨h1 | h1, h2⟩)
        · exact Or.inl h1
        · exact absurd (by simp [h1]) h2
        · exact Or.inr h1
    · simp only [dictSet, hk, if_false, List.mem_cons]
      rw [mem_dictSet (d := rest) h'.2 e]
      constructor
      · rintro (rfl | h1 | ⟨h1, h2⟩)
        · exact Or.inr ⟨Or.inl rfl, hk⟩
        · exact Or.inl h1
        · exact Or.inr ⟨Or.inr h1, h2⟩
      · rintro (h1 | ⟨h1 | h1, h2⟩)
        · exact Or.inr (Or.inl h1)
        · exact Or.inl h1
        · exact Or.inr (Or.inr ⟨h1, h2⟩)

theorem distinctKeys_dictSet {key : K} {value : V} : ∀ {d : List (K × V)}, Spec.DistinctKeys d →
    Spec.DistinctKeys (dictSet key value d)
  | [], _ => by simp [dictSet, Spec.DistinctKeys]
  | (k, v) :: rest, h => by
    have h' := List.nodup_cons.mp h
    by_cases hk : k = key
    · subst hk
      simp only [dictSet, if_true]
      exact List.nodup_cons.mpr h'
    · simp only [dictSet, hk, if_false]
      refine List.nodup_cons.mpr ⟨?_, distinctKeys_dictSet (d := rest) h'.2⟩
      intro hmem
      obtain ⟨e, he, he1⟩ := List.mem_map.mp hmem
      rcases (mem_dictSet (d := rest) h'.2 e).mp he with rfl | ⟨he2, -⟩
      · exact hk he1.symm
      · exact h'.1 (List.mem_map.mpr ⟨e, he2, he1⟩)

/-- All updates of a product, one after another. -/
def updates (p : Product K V) : List (Snapshot K) → Except (RunError E) (Product K V)
  | [] => .ok p
  | s :: rest => do
    let p ← p.update s
    updates p rest

/-- The value that the last state with a given time yields. -/
def Spec.lastAt (f : Snapshot K → V) (t : K) : List (Snapshot K) → Option V
  | [] => none
  | s :: rest => match Spec.lastAt f t rest with
    | some v => some v
    | none => if s.time = t then some (f s) else none

theorem updates_entries {f : Snapshot K → V} : ∀ (history : List (Snapshot K)) (p : Product K V),
    p.rule = some f → Spec.DistinctKeys p.data →
    ∃ q, updates (E := E) p history = .ok q ∧ q.name = p.name ∧ Spec.DistinctKeys q.data ∧
      ∀ t v, (t, v) ∈ q.data ↔ Spec.lastAt f t history = some v ∨
        Spec.lastAt f t history = none ∧ (t, v) ∈ p.data
  | [], p, hp, hd => ⟨p, rfl, rfl, hd, by simp [Spec.lastAt]⟩
  | s :: rest, p, hp, hd => by
    have hu : Product.update (E := E) p s =
        .ok { p with data := dictSet s.time (f s) p.data } := by
      simp [Product.update, hp]
    obtain ⟨q, hq, hname, hq1, hq2⟩ := updates_entries rest
      { p with data := dictSet s.time (f s) p.data } hp (distinctKeys_dictSet hd)
    refine ⟨q, by simp only [updates, hu]; exact hq, hname, hq1, ?_⟩
    intro t v
    rw [hq2 t v]
    simp only [mem_dictSet hd, Prod.mk.injEq, Spec.lastAt]
    cases h : Spec.lastAt f t rest with
    | some w => simp
    | none =>
      by_cases ht : s.time = t
      · subst ht; simp [eq_comm]
      · simp [ht, Ne.symm ht]

/-- C57: after any history the product holds one entry for each distinct time, and the entry is the
least vertical position of the contact nodes in the last state with that time. -/
theorem C57_history (contactNodes : ℕ) (history : List (Snapshot K)) (h : 0 < contactNodes) :
    ∃ q, updates (E := E) (penetration contactNodes) history = .ok q ∧
      Spec.DistinctKeys q.data ∧
      (∀ s ∈ history, ∃ v, (s.time, v) ∈ q.data) ∧
      ∀ t v, (t, v) ∈ q.data → ∃ s ∈ history, s.time = t ∧
        Spec.LeastOf contactNodes (fun i => s.displacedNodes i 1) v ∧
        Spec.lastAt (fun s => s) t history = some s := by
  obtain ⟨q, hq, -, hd, he⟩ := updates_entries (E := E) history
    (penetration (K := K) contactNodes) rfl (by simp [penetration, Spec.DistinctKeys])
  have hlast : ∀ (l : List (Snapshot K)) (t : K),
      Spec.lastAt (penetrationValue contactNodes) t l =
        (Spec.lastAt (fun s => s) t l).map (penetrationValue contactNodes) := by
    intro l t
    induction l with
    | nil => rfl
    | cons s rest ih =>
      simp only [Spec.lastAt, ih]
      cases Spec.lastAt (fun s : Snapshot K => s) t rest with
      | some w => rfl
      | none => by_cases ht : s.time = t <;> simp [ht]
  have hsome : ∀ (l : List (Snapshot K)) (t : K) (s : Snapshot K),
      Spec.lastAt (fun s => s) t l = some s → s ∈ l ∧ s.time = t := by
    intro l t s
    induction l with
    | nil => simp [Spec.lastAt]
    | cons a rest ih =>
      simp only [Spec.lastAt]
      cases h : Spec.lastAt (fun s : Snapshot K => s) t rest with
      | some w =>
        intro hw
        rw [h] at ih
        have := ih hw
        exact ⟨List.mem_cons_of_mem _ this.1, this.2⟩
      | none =>
        by_cases ht : a.time = t
        · simp only [ht, if_true, Option.some.injEq]
          rintro rfl
          exact ⟨by simp, ht⟩
        · simp [ht]
  have hex : ∀ (l : List (Snapshot K)) (s : Snapshot K), s ∈ l →
      ∃ w, Spec.lastAt (fun s => s) s.time l = some w := by
    intro l s
    induction l with
    | nil => simp
    | cons a rest ih =>
      intro hs
      simp only [Spec.lastAt]
      cases h : Spec.lastAt (fun s : Snapshot K => s) s.time rest with
      | some w => exact ⟨w, rfl⟩
      | none =>
        rcases List.mem_cons.mp hs with rfl | hs
        · simp
        · obtain ⟨w, hw⟩ := ih hs
          rw [h] at hw; cases hw
  refine ⟨q, hq, hd, ?_, ?_⟩
  · intro s hs
    obtain ⟨w, hw⟩ := hex history s hs
    exact ⟨penetrationValue contactNodes w, (he _ _).mpr (Or.inl (by rw [hlast, hw]; rfl))⟩
  · intro t v hv
    rcases (he t v).mp hv with h1 | ⟨-, h1⟩
    · rw [hlast] at h1
      cases hs : Spec.lastAt (fun s : Snapshot K => s) t history with
      | none => rw [hs] at h1; cases h1
      | some s =>
        rw [hs] at h1
        obtain ⟨h2, h3⟩ := hsome _ _ _ hs
        refine ⟨s, h2, h3, ?_, rfl⟩
        have := C57_value contactNodes s h
        simp only [Option.map_some, Option.some.injEq] at h1
        rwa [h1] at this
    · simp [penetration] at h1

/-- A state of a body with three nodes at a time. -/
def threeNodes (time a b c : ℚ) : Snapshot ℚ :=
  { absement := fun _ _ => 0, displacement := fun _ _ => 0,
    displacedNodes := fun i _ => if i = 0 then a else if i = 1 then b else c
    velocity := fun _ _ => 0, scalar := .absent, time := time }

example : penetrationValue 3 (threeNodes 1 4 (-2) 7) = -2 := by decide +kernel

example : ∃ q, updates (E := Unit) (penetration 3)
    [threeNodes 0 1 2 3, threeNodes 1 5 4 6, threeNodes 1 7 8 6] = .ok q ∧
    q.data = [(0, 1), (1, 6)] := ⟨_, rfl, by decide +kernel⟩

end C57

section C51

variable {K : Type} [Field K] [LinearOrder K] [IsStrictOrderedRing K]
variable {find : (K → K) → K → K → Option K} {f : K → K} {xmin xmax step : K}

/-- C51: with a positive step the scan ends, whatever the function, and never asks the root finder
for an interval without a change of sign. -/
theorem C51_total [Archimedean K] (hs : 0 < step) (hf : Spec.Bracketing find f) :
    ∃ n, ∀ m, n ≤ m → ∃ zeros, estimateZeros find m f xmin xmax step = .ok zeros := by
  obtain ⟨N, hN⟩ := exists_nat_gt ((xmax - xmin) / step)
  have hN' : xmax < Spec.scanPoint xmin step N := by
    rw [div_lt_iff₀ hs] at hN
    simp only [Spec.scanPoint]; linarith
  refine ⟨N + 1, fun m hm => ?_⟩
  have := zerosLoop_total hs hf hN' m 0 [] (by omega) (by omega)
  simpa [estimateZeros, Spec.scanPoint] using this

/-- C51: exactly the scan points that are zeros and the answers for all changes of sign between
successive scan points are reported. -/
theorem C51_reported (hs : 0 < step) {n : ℕ} {zeros : List K}
    (h : estimateZeros find n f xmin xmax step = .ok zeros) (z : K) :
    z ∈ zeros ↔ Spec.Reported find f xmin xmax step z := by
  have := zerosLoop_mem (xmin := xmin) hs n 0 [] zeros
    (by simpa [estimateZeros, Spec.scanPoint] using h) z
  rw [this]
  simp [Remaining, Spec.Reported]

/-- C51: the reported values are increasing. -/
theorem C51_increasing (hs : 0 < step) (hf : Spec.Bracketing find f) {n : ℕ} {zeros : List K}
    (h : estimateZeros find n f xmin xmax step = .ok zeros) : zeros.Pairwise (· ≤ ·) :=
  zerosLoop_sorted (xmin := xmin) hs hf n 0 [] zeros
    (by simpa [estimateZeros, Spec.scanPoint] using h) (by simp) (by simp) (by simp)

/-- C51: with exact roots the reported values are zeros of the function and strictly increasing. -/
theorem C51_zeros (hs : 0 < step) (hf : Spec.Bracketing find f) (he : Spec.Exact find f) {n : ℕ}
    {zeros : List K} (h : estimateZeros find n f xmin xmax step = .ok zeros) :
    zeros.Pairwise (· < ·) ∧ ∀ z ∈ zeros, f z = 0 := by
  refine ⟨zerosLoop_strict (xmin := xmin) hs hf he n 0 [] zeros
    (by simpa [estimateZeros, Spec.scanPoint] using h) (by simp) (by simp) (by simp), ?_⟩
  intro z hz
  rcases (C51_reported hs h z).mp hz with ⟨k, -, h1, rfl⟩ | ⟨k, -, h1, h2⟩
  · exact h1
  · exact he _ _ z (by rw [scanPoint_succ]; linarith) h1 h2

/-- C51: the reported values lie in the scanned interval. -/
theorem C51_inside (hs : 0 < step) (hf : Spec.Bracketing find f) {n : ℕ} {zeros : List K}
    (h : estimateZeros find n f xmin xmax step = .ok zeros) (z : K) (hz : z ∈ zeros) :
    xmin ≤ z ∧ z ≤ xmax := by
  have h0 : ∀ k, xmin ≤ Spec.scanPoint xmin step k := fun k => by
    have := scanPoint_mono (xmin := xmin) hs (Nat.zero_le k)
    simpa [Spec.scanPoint] using this
  rcases (C51_reported hs h z).mp hz with ⟨k, h1, -, rfl⟩ | ⟨k, h1, h2, h3⟩
  · exact ⟨h0 k, h1⟩
  · obtain ⟨r, hr, hr1, hr2⟩ := hf _ _ (by rw [scanPoint_succ]; linarith) h2
    rw [hr] at h3
    cases h3
    exact ⟨(h0 k).trans hr1, hr2.trans h1⟩

/-- C51: without a positive step the scan of a non-empty interval never ends. -/
theorem C51_step_wrong (hs : step ≤ 0) (hx : xmin ≤ xmax) (n : ℕ) (zeros : List K) :
    estimateZeros find n f xmin xmax step ≠ .ok zeros := by
  have key : ∀ (n : ℕ) (x s : K) (acc : List K), x ≤ xmax →
      zerosLoop find f xmax step n x s acc ≠ .ok zeros := by
    intro n
    induction n with
    | zero => intro x s acc _ h; simp [zerosLoop] at h
    | succ n ih =>
      intro x s acc hx h
      have hx' : x + step ≤ xmax := by linarith
      rw [zerosLoop] at h
      simp only [hx, if_true] at h
      split at h
      · exact ih _ _ _ hx' h
      · cases h
  exact key n xmin _ [] hx

/-- C51: the step used for the contact limit points is positive, and the scan ends. -/
theorem C51_limit_points [Archimedean K] {nodesCount : ℕ} (h : 0 < nodesCount)
    (hf : Spec.Bracketing find f) (yMin yMax : K) :
    ∃ n, ∀ m, n ≤ m → ∃ zeros, limitPoints find m nodesCount f yMin yMax = .ok zeros :=
  C51_total (by positivity) hf

/-- C51: the contact limit points are looked for at steps of half the reciprocal of the number of nodes:
exactly the zeros at the points `yMin + k / (2 nodesCount)` and the answers for all changes of sign between
successive ones are reported. -/
theorem C51_limit_reported {nodesCount : ℕ} (h : 0 < nodesCount) {yMin yMax : K} {m : ℕ} {zeros : List K}
    (hz : limitPoints find m nodesCount f yMin yMax = .ok zeros) (z : K) :
    z ∈ zeros ↔ Spec.Reported find f yMin yMax (1 / (2 * nodesCount)) z := by
  have hs : (1 : K) / (2 * nodesCount) = (nodesCount : K)⁻¹ / 2 := by
    rw [one_div, mul_inv, mul_comm, div_eq_mul_inv]
  rw [hs]
  exact C51_reported (by positivity) hz z

/-- The exact root finder for the function of the next two examples. -/
def bisectLinear (root : ℚ) : (ℚ → ℚ) → ℚ → ℚ → Option ℚ := fun f a b =>
  if f a * f b < 0 then some root else none

example : Spec.Bracketing (bisectLinear (9 / 10)) (fun x => x - 9 / 10) := by
  intro a b hab h
  refine ⟨9 / 10, by simp only [bisectLinear, h, if_true], ?_⟩
  rcases mul_neg_iff.mp h with ⟨h1, h2⟩ | ⟨h1, h2⟩ <;> constructor <;> linarith

example : estimateZeros (bisectLinear (9 / 10)) 100 (fun x => x - 9 / 10) 0 1 (1 / 4)
    = .ok [9 / 10] := by decide +kernel

/-- C51: a change of sign between the last scan point and the end of the interval is not reported.
-/
theorem C51_tail_wrong :
    ((9 / 10 : ℚ) - 9 / 10 = 0 ∧ (0 : ℚ) ≤ 9 / 10 ∧ (9 / 10 : ℚ) ≤ 1 ∧
      ((0 : ℚ) - 9 / 10) * (1 - 9 / 10) < 0) ∧
    estimateZeros (bisectLinear (9 / 10)) 100 (fun x => x - 9 / 10) 0 1 (2 / 5) = .ok [] := by
  refine ⟨by norm_num, ?_⟩
  decide +kernel

end C51

end Conmech
