import Verif.Model.Solvers
/-!
Lemmas about the solver registry.
-/
namespace Conmech
variable {Solver : Type _}

theorem lookup_append_some {α β : Type _} [BEq α] {l m : List (α × β)} {k : α} {v : β}
    (h : l.lookup k = some v) : (l ++ m).lookup k = some v := by
  rw [List.lookup_append, h]; rfl

theorem insert_preserves (r : Registry Solver) (d : Dynamism) (key : String) (s : Solver)
    (d' : Dynamism) (k : String) (v : Solver) (h : (r d').lookup k = some v) :
    ((r.insert d key s) d').lookup k = some v := by
  unfold Registry.insert
  split
  · exact lookup_append_some h
  · exact h

theorem insert_found (r : Registry Solver) (d : Dynamism) (key : String) (s : Solver)
    (h : ((r d).lookup key).isSome = false) : ((r.insert d key s) d).lookup key = some s := by
  unfold Registry.insert
  have : (r d).lookup key = none := by
    cases h' : (r d).lookup key with
    | none => rfl
    | some v => rw [h'] at h; cases h
  simp [List.lookup_append, this, List.lookup]

theorem insert_only (r : Registry Solver) (d : Dynamism) (key : String) (s : Solver)
    (d' : Dynamism) (k : String) (v : Solver) (h : ((r.insert d key s) d').lookup k = some v) :
    (r d').lookup k = some v ∨ (d' = d ∧ k = key ∧ v = s) := by
  unfold Registry.insert at h
  split at h
  · rename_i hd
    rw [List.lookup_append] at h
    cases h' : (r d').lookup k with
    | some w => rw [h'] at h; left; simpa using h
    | none =>
      rw [h'] at h
      simp only [Option.none_or, List.lookup] at h
      split at h
      · rename_i hk
        exact .inr ⟨hd, by simpa using hk, by simpa using h.symm⟩
      · cases h
  · exact .inl h

theorem registerNames_preserves (lower : String → String) (s : Solver) (d : Dynamism)
    (names : List String) (r : Registry Solver) (d' : Dynamism) (k : String) (v : Solver)
    (h : (r d').lookup k = some v) :
    (((registerNames lower s d names r).1) d').lookup k = some v := by
  induction names generalizing r with
  | nil => exact h
  | cons n ns ih =>
    unfold registerNames
    split
    · exact h
    · exact ih _ (insert_preserves r d (lower n) s d' k v h)

theorem registerTypes_preserves (lower : String → String) (s : Solver) (names : List String)
    (ds : List Dynamism) (r : Registry Solver) (d' : Dynamism) (k : String) (v : Solver)
    (h : (r d').lookup k = some v) :
    (((registerTypes lower s names ds r).1) d').lookup k = some v := by
  induction ds generalizing r with
  | nil => exact h
  | cons d ds ih =>
    unfold registerTypes
    have h' := registerNames_preserves lower s d names r d' k v h
    split
    · rename_i r' e heq; rw [heq] at h'; exact h'
    · rename_i r' heq; rw [heq] at h'; exact ih _ h'

theorem registerNames_found (lower : String → String) (s : Solver) (d : Dynamism)
    (names : List String) (r r' : Registry Solver)
    (h : registerNames lower s d names r = (r', none)) (n : String) (hn : n ∈ names) :
    (r' d).lookup (lower n) = some s := by
  induction names generalizing r with
  | nil => cases hn
  | cons m ns ih =>
    unfold registerNames at h
    split at h
    · cases h
    · rename_i hfree
      rcases List.mem_cons.1 hn with rfl | hn
      · have h1 := insert_found r d (lower n) s (Bool.eq_false_iff.2 hfree)
        have h2 := registerNames_preserves lower s d ns _ d _ s h1
        rw [h] at h2; exact h2
      · exact ih _ h hn

theorem registerTypes_found (lower : String → String) (s : Solver) (names : List String)
    (ds : List Dynamism) (r r' : Registry Solver)
    (h : registerTypes lower s names ds r = (r', none)) (d : Dynamism) (hd : d ∈ ds) (n : String)
    (hn : n ∈ names) : (r' d).lookup (lower n) = some s := by
  induction ds generalizing r with
  | nil => cases hd
  | cons e ds ih =>
    unfold registerTypes at h
    split at h
    · cases h
    · rename_i r1 heq
      rcases List.mem_cons.1 hd with rfl | hd
      · have h1 := registerNames_found lower s d names r r1 heq n hn
        have h2 := registerTypes_preserves lower s names ds r1 d _ s h1
        rw [h] at h2; exact h2
      · exact ih _ h hd

theorem registerNames_only (lower : String → String) (s : Solver) (d : Dynamism)
    (names : List String) (r : Registry Solver) (d' : Dynamism) (k : String) (v : Solver)
    (h : (((registerNames lower s d names r).1) d').lookup k = some v) :
    (r d').lookup k = some v ∨ (d' = d ∧ (∃ n ∈ names, lower n = k) ∧ v = s) := by
  induction names generalizing r with
  | nil => exact .inl h
  | cons n ns ih =>
    unfold registerNames at h
    split at h
    · exact .inl h
    · rcases ih _ h with h | ⟨h1, ⟨m, hm, h2⟩, h3⟩
      · rcases insert_only _ _ _ _ _ _ _ h with h | ⟨h1, h2, h3⟩
        · exact .inl h
        · exact .inr ⟨h1, ⟨n, List.mem_cons_self, h2.symm⟩, h3⟩
      · exact .inr ⟨h1, ⟨m, List.mem_cons_of_mem _ hm, h2⟩, h3⟩

theorem registerTypes_only (lower : String → String) (s : Solver) (names : List String)
    (ds : List Dynamism) (r : Registry Solver) (d' : Dynamism) (k : String) (v : Solver)
    (h : (((registerTypes lower s names ds r).1) d').lookup k = some v) :
    (r d').lookup k = some v ∨ (d' ∈ ds ∧ (∃ n ∈ names, lower n = k) ∧ v = s) := by
  induction ds generalizing r with
  | nil => exact .inl h
  | cons e ds ih =>
    unfold registerTypes at h
    split at h
    · rename_i r1 err heq
      have := registerNames_only lower s e names r d' k v (by rw [heq]; exact h)
      rcases this with h | ⟨h1, h2, h3⟩
      · exact .inl h
      · exact .inr ⟨by rw [h1]; exact List.mem_cons_self, h2, h3⟩
    · rename_i r1 heq
      rcases ih _ h with h | ⟨h1, h2, h3⟩
      · have := registerNames_only lower s e names r d' k v (by rw [heq]; exact h)
        rcases this with h | ⟨h1, h2, h3⟩
        · exact .inl h
        · exact .inr ⟨by rw [h1]; exact List.mem_cons_self, h2, h3⟩
      · exact .inr ⟨List.mem_cons_of_mem _ h1, h2, h3⟩

theorem registerNames_taken (lower : String → String) (s : Solver) (d : Dynamism)
    (names : List String) (r : Registry Solver) (n : String) (hn : n ∈ names) (v : Solver)
    (h : (r d).lookup (lower n) = some v) :
    (registerNames lower s d names r).2 = some .nameTaken := by
  induction names generalizing r with
  | nil => cases hn
  | cons m ns ih =>
    unfold registerNames
    split
    · rfl
    · rename_i hfree
      rcases List.mem_cons.1 hn with rfl | hn
      · rw [h] at hfree; simp at hfree
      · exact ih _ hn (insert_preserves r d _ s d _ v h)

theorem registerNames_error (lower : String → String) (s : Solver) (d : Dynamism)
    (names : List String) (r r' : Registry Solver) (e : RegistryError)
    (h : registerNames lower s d names r = (r', some e)) : e = .nameTaken := by
  induction names generalizing r with
  | nil => cases h
  | cons n ns ih =>
    unfold registerNames at h
    split at h
    · simpa using (congrArg Prod.snd h).symm
    · exact ih _ h

theorem registerTypes_taken (lower : String → String) (s : Solver) (names : List String)
    (ds : List Dynamism) (r : Registry Solver) (d : Dynamism) (hd : d ∈ ds) (n : String)
    (hn : n ∈ names) (v : Solver) (h : (r d).lookup (lower n) = some v) :
    (registerTypes lower s names ds r).2 = some .nameTaken := by
  induction ds generalizing r with
  | nil => cases hd
  | cons e ds ih =>
    unfold registerTypes
    split
    · rename_i r1 err heq
      exact congrArg some (registerNames_error lower s e names r r1 err heq)
    · rename_i r1 heq
      rcases List.mem_cons.1 hd with rfl | hd
      · have := registerNames_taken lower s d names r n hn v h
        rw [heq] at this; cases this
      · have h1 := registerNames_preserves lower s e names r d _ v h
        rw [heq] at h1
        exact ih _ hd h1

end Conmech
