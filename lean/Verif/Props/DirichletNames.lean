import Verif.Model.DirichletNames
import Mathlib.Data.List.Nodup
import Mathlib.Data.List.NodupEquivFin
import Mathlib.Data.Fintype.Card
import Mathlib.Data.Finset.Card
import Mathlib.Order.Basic
import Std.Data.String.ToNat

/-!
Property C15: which Dirichlet boundaries are imposed.
-/
namespace Conmech

theorem numberedName_inj (base : String) {i j : ℕ}
    (h : numberedName base i = numberedName base j) : i = j := by
  unfold numberedName at h
  have h2 : toString i = toString j := by
    have := congrArg String.toList h
    simp only [String.toList_append, List.append_cancel_left_eq] at this
    exact String.toList_injective this
  exact Nat.repr_injective (by simpa [Nat.toString_eq_repr] using h2)

/-- Among the first `names.length + 1` numbered names one is missing. -/
theorem exists_missing (base : String) (names : List String) :
    ∃ k ≤ names.length, numberedName base k ∉ names := by
  by_contra hcon
  push Not at hcon
  have hnd : ((List.range (names.length + 1)).map (numberedName base)).Nodup :=
    List.nodup_range.map (fun i j h => numberedName_inj base h)
  have hsub : ((List.range (names.length + 1)).map (numberedName base)) ⊆ names := by
    intro x hx
    obtain ⟨i, hi, rfl⟩ := List.mem_map.1 hx
    exact hcon i (by simpa [Nat.lt_succ_iff] using hi)
  have := (List.subperm_of_subset hnd hsub).length_le
  simp at this
  omega

theorem numberedLoop_spec (base : String) (names : List String) (fuel i : ℕ)
    (h : ∃ k, i ≤ k ∧ k < i + fuel ∧ numberedName base k ∉ names) :
    ∃ k, i ≤ k ∧ numberedName base k ∉ names ∧ (∀ j, i ≤ j → j < k → numberedName base j ∈ names) ∧
      numberedLoop base names fuel i = (List.range' i (k - i)).map (numberedName base) := by
  induction fuel generalizing i with
  | zero => obtain ⟨k, h1, h2, _⟩ := h; omega
  | succ fuel ih =>
    unfold numberedLoop
    by_cases hi : numberedName base i ∈ names
    · obtain ⟨k, h1, h2, h3⟩ := h
      have hne : k ≠ i := by rintro rfl; exact h3 hi
      obtain ⟨k', g1, g2, g3, g4⟩ := ih (i + 1) ⟨k, by omega, by omega, h3⟩
      refine ⟨k', by omega, g2, ?_, ?_⟩
      · intro j hj1 hj2
        rcases Nat.eq_or_lt_of_le hj1 with rfl | hlt
        · exact hi
        · exact g3 j hlt hj2
      · rw [if_pos hi, g4, show k' - i = (k' - (i + 1)) + 1 by omega, List.range'_succ]
        rfl
    · exact ⟨i, le_rfl, hi, by intro j _ _; omega, by simp [hi]⟩

/-- C15. The imposed conditions are: the boundary of the plain name if it is registered; otherwise
the numbered ones `name_0 … name_(k-1)` in order, where `k` is the first number missing. -/
theorem C15_found_names (base : String) (names : List String) :
    (base ∈ names → findDirichletConditions base names = [base]) ∧
    (base ∉ names → ∃ k, findDirichletConditions base names =
        (List.range k).map (fun i => base ++ "_" ++ toString i) ∧
      (∀ i < k, base ++ "_" ++ toString i ∈ names) ∧ base ++ "_" ++ toString k ∉ names) := by
  refine ⟨fun h => by simp [findDirichletConditions, h], ?_⟩
  intro h
  obtain ⟨k, hk, hmiss⟩ := exists_missing base names
  obtain ⟨k', _, g2, g3, g4⟩ := numberedLoop_spec base names (names.length + 1) 0
    ⟨k, by omega, by omega, hmiss⟩
  refine ⟨k', ?_, fun i hi => g3 i (by omega) hi, g2⟩
  simp only [findDirichletConditions, h, if_false, g4, Nat.sub_zero, List.range_eq_range']
  rfl

/-- C15 (partial: see the three negations below). If the numbered boundaries `name_0 … name_(k-1)`
are exactly the ones declared under the name, all with nodes, then all of them are imposed in
order. -/
theorem C15_numbered_imposed_partial (base : String) (names : List String) (k : ℕ)
    (hbase : base ∉ names) (hall : ∀ i < k, base ++ "_" ++ toString i ∈ names)
    (hno : base ++ "_" ++ toString k ∉ names) :
    findDirichletConditions base names =
      (List.range k).map (fun i => base ++ "_" ++ toString i) := by
  obtain ⟨k', h1, h2, h3⟩ := (C15_found_names base names).2 hbase
  have : k' = k := by
    rcases Nat.lt_trichotomy k' k with h | h | h
    · exact absurd (hall k' h) h3
    · exact h
    · exact absurd (h2 k h) hno
  rw [h1, this]

/-- C15: the registered boundaries are the three standard ones and, in order of declaration, all
others that have a node; those called `contact` or `dirichlet` are the standard ones. -/
theorem C15_registered_names (ds : List Declared) (names : List String)
    (h : registeredNames ds = .ok names) :
    names = ["contact", "neumann", "dirichlet"] ++
      (ds.filter fun d => d.hasNodes && d.name != "contact" && d.name != "dirichlet").map
        Declared.name := by
  have key : ∀ ds others, otherNames ds = .ok others → others =
      (ds.filter fun d => d.hasNodes && d.name != "contact" && d.name != "dirichlet").map
        Declared.name := by
    intro ds
    induction ds with
    | nil => intro others h; simp only [otherNames, Except.ok.injEq] at h; subst h; rfl
    | cons d ds ih =>
      intro others h
      simp only [otherNames] at h
      split_ifs at h with h1 h2 h3
      · rw [ih others h, List.filter_cons_of_neg]
        rcases h1 with h1 | h1 <;> simp [h1]
      · rw [not_or] at h1
        split at h
        · rename_i rest hr
          simp only [Except.ok.injEq] at h
          subst h
          rw [List.filter_cons_of_pos (by simp [h1, h2]), List.map_cons, ih rest hr]
        · cases h
      · rw [ih others h, List.filter_cons_of_neg]
        simp [h2]
  unfold registeredNames at h
  split at h
  · cases h
  · rename_i others ho
    split_ifs at h
    simp only [Except.ok.injEq] at h
    rw [← h, key ds others ho]

/-- C15, negation: for the default name only the plain boundary is ever imposed, whatever is
declared; a registered `dirichlet_0` is ignored. -/
theorem C15_default_numbered_ignored_wrong (ds : List Declared) (names : List String)
    (h : registeredNames ds = .ok names) :
    findDirichletConditions "dirichlet" names = ["dirichlet"] := by
  have : "dirichlet" ∈ names := by
    unfold registeredNames at h
    split at h
    · simp at h
    · split at h
      · simp at h
      · simp only [Except.ok.injEq] at h; subst h; simp
  exact (C15_found_names "dirichlet" names).1 this

-- such a declaration exists, with `dirichlet_0` registered
example : ∃ names, registeredNames [⟨"dirichlet_0", true, true⟩] = .ok names ∧
    "dirichlet_0" ∈ names := ⟨_, rfl, by decide⟩

/-- C15, negation: the heat equation of a thermoelastic problem has no boundary of its own. Whatever is
declared, it imposes the boundary on which the displacement is prescribed, with the same condition, and
no other; so a clamped boundary is always kept at a prescribed temperature, and no boundary can be kept
at a temperature without being clamped. The potential has its own name: `dirichlet` is never imposed on
it. -/
theorem C15_temperature_wrong (ds : List Declared) (names : List String)
    (h : registeredNames ds = .ok names) :
    findDirichletConditions StatementKind.temperature.dirichletCondName names = ["dirichlet"] ∧
    findDirichletConditions StatementKind.dynamicVelocityWithTemperature.dirichletCondName names =
      ["dirichlet"] ∧
    "dirichlet" ∉ findDirichletConditions StatementKind.piezoelectric.dirichletCondName names := by
  refine ⟨C15_default_numbered_ignored_wrong ds names h,
    C15_default_numbered_ignored_wrong ds names h, ?_⟩
  change "dirichlet" ∉ findDirichletConditions ("piezo_" ++ "dirichlet") names
  unfold findDirichletConditions
  split_ifs
  · decide
  · intro hm
    have : ∀ fuel i, ∀ x ∈ numberedLoop ("piezo_" ++ "dirichlet") names fuel i, x.toList.head? = some 'p' := by
      intro fuel
      induction fuel with
      | zero => intro i x hx; cases hx
      | succ fuel ih =>
        intro i x hx
        unfold numberedLoop at hx
        split_ifs at hx
        · rcases List.mem_cons.1 hx with rfl | hx
          · simp [numberedName, String.toList_append]
          · exact ih _ _ hx
        · cases hx
    exact absurd (this _ _ _ hm) (by decide)

/-- C15, negation: a numbered boundary that selects no node hides all later ones. -/
theorem C15_empty_hides_later_wrong :
    registeredNames [⟨"piezo_dirichlet_0", false, true⟩, ⟨"piezo_dirichlet_1", true, true⟩] =
      .ok ["contact", "neumann", "dirichlet", "piezo_dirichlet_1"] ∧
    findDirichletConditions "piezo_dirichlet"
      ["contact", "neumann", "dirichlet", "piezo_dirichlet_1"] = [] := by
  refine ⟨by decide, ?_⟩
  have : findDirichletConditions "piezo_dirichlet"
      ["contact", "neumann", "dirichlet", "piezo_dirichlet_1"] =
      (List.range 0).map (fun i => "piezo_dirichlet" ++ "_" ++ toString i) := by
    apply C15_numbered_imposed_partial
    · decide
    · intro i hi; omega
    · decide
  simpa using this

/-- C15, negation: a user-defined boundary without a condition makes the construction fail as soon
as it selects a node. -/
theorem C15_no_condition_error (ds1 ds2 : List Declared) (d : Declared)
    (hname : d.name ≠ "contact" ∧ d.name ≠ "dirichlet") (hn : d.hasNodes = true)
    (hc : d.hasCondition = false) :
    ∃ e, registeredNames (ds1 ++ d :: ds2) = .error e := by
  have key : ∃ e, otherNames (ds1 ++ d :: ds2) = .error e := by
    induction ds1 with
    | nil => exact ⟨"KeyError", by simp [otherNames, hname, hn, hc]⟩
    | cons a ds1 ih =>
      obtain ⟨e, he⟩ := ih
      simp only [List.cons_append, otherNames, he]
      split_ifs <;> exact ⟨_, rfl⟩
  obtain ⟨e, he⟩ := key
  exact ⟨e, by simp [registeredNames, he]⟩

/-- C15, negation: a boundary called `neumann` with a condition and a node makes the construction
fail. -/
theorem C15_neumann_error (ds1 ds2 : List Declared) (d : Declared)
    (hname : d.name = "neumann") (hn : d.hasNodes = true) :
    ∃ e, registeredNames (ds1 ++ d :: ds2) = .error e := by
  have key : ∀ names, otherNames (ds1 ++ d :: ds2) = .ok names → "neumann" ∈ names := by
    induction ds1 with
    | nil =>
      intro names h
      simp only [List.nil_append, otherNames, hname, hn] at h
      simp only [if_true] at h
      rw [if_neg (by decide)] at h
      split at h
      swap
      · simp at h
      split at h
      · simp only [Except.ok.injEq] at h; subst h; simp
      · simp at h
    | cons a ds1 ih =>
      intro names h
      simp only [List.cons_append, otherNames] at h
      split_ifs at h
      · exact ih names h
      · split at h
        · simp only [Except.ok.injEq] at h; subst h
          exact List.mem_cons_of_mem _ (ih _ (by assumption))
        · simp at h
      · exact ih names h
  unfold registeredNames
  split
  · exact ⟨_, rfl⟩
  · rename_i others ho
    have hm := key others ho
    rw [if_pos]
    · exact ⟨_, rfl⟩
    · rw [List.any_eq_true]; exact ⟨"neumann", hm, by decide⟩

-- three numbered boundaries of the electric potential
example : findDirichletConditions "piezo_dirichlet"
    ["contact", "neumann", "dirichlet", "piezo_dirichlet_1", "piezo_dirichlet_0"] =
    ["piezo_dirichlet_0", "piezo_dirichlet_1"] :=
  C15_numbered_imposed_partial _ _ 2 (by decide)
    (by intro i hi; have : i = 0 ∨ i = 1 := by omega
        rcases this with rfl | rfl <;> decide) (by decide)

end Conmech
