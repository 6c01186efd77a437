import Verif.Lemmas.Registry
import Verif.Lemmas.Problems
import Verif.Spec.Registry
/-!
C45: the solver registry. `lower` is `str.lower`.
-/
namespace Conmech
open Spec
variable {Solver : Type _} (lower : String → String)

theorem getByName_ok (r : Registry Solver) (name : String) (c : ProblemClass) (s : Solver) :
    getByName lower r name c = .ok s ↔
      ∃ d, dynamismOf c = .ok d ∧ (r d).lookup (lower name) = some s := by
  unfold getByName
  cases h : dynamismOf c with
  | error e => simp [bind, Except.bind]
  | ok d =>
    simp only [bind, Except.bind]
    cases h2 : (r d).lookup (lower name) <;> simp [h2]

theorem ProblemClass.mem_all (c : ProblemClass) : c ∈ ProblemClass.all := by
  cases c <;> decide

/-- `isinstance` is inheritance. -/
theorem C45_isinstance (c base : ProblemClass) : c.isInstance base = true ↔ Inherits c base := by
  have tbl1 : ∀ c ∈ ProblemClass.all, c.isInstance c = true := by
    simp only [isInstance_eq]; decide +kernel
  have tbl2 : ∀ c ∈ ProblemClass.all, ∀ a ∈ c.bases, ∀ b ∈ ProblemClass.all,
      a.isInstance b = true → c.isInstance b = true := by
    simp only [isInstance_eq]; decide +kernel
  have tbl3 : ∀ c ∈ ProblemClass.all, ∀ b ∈ ProblemClass.all, c.isInstance b = true →
      b = c ∨ ∃ a ∈ c.bases, a.isInstance b = true ∧ a.mro.length < c.mro.length := by
    simp only [isInstance_eq, mro_eq]; decide +kernel
  constructor
  · generalize hn : c.mro.length = n
    intro h
    induction n using Nat.strong_induction_on generalizing c with
    | _ n ih =>
      rcases tbl3 c c.mem_all base base.mem_all h with rfl | ⟨a, ha, hab, hlt⟩
      · exact .refl
      · exact .head ha (ih _ (hn ▸ hlt) a rfl hab)
  · intro h
    induction h using Relation.ReflTransGen.head_induction_on with
    | refl => exact tbl1 base base.mem_all
    | head h1 _ ih => exact tbl2 _ (ProblemClass.mem_all _) _ h1 _ (ProblemClass.mem_all _) ih

/-- The kind of problem is decided by inheritance; relaxation problems are not treated as plain
quasistatic ones; the classes which belong to no kind are rejected. -/
theorem C45_kind_of_problem (c : ProblemClass) :
    (dynamismOf c = .ok .quasistaticRelaxation ↔ Inherits c .RelaxationQuasistaticProblem) ∧
    (dynamismOf c = .ok .static ↔ Inherits c .StaticProblem) ∧
    (dynamismOf c = .ok .quasistatic ↔
      Inherits c .QuasistaticProblem ∧ ¬ Inherits c .RelaxationQuasistaticProblem) ∧
    (dynamismOf c = .ok .dynamic ↔ Inherits c .DynamicProblem) ∧
    (dynamismOf c = .error .unsupported ↔ ¬ Inherits c .StaticProblem ∧
      ¬ Inherits c .QuasistaticProblem ∧ ¬ Inherits c .DynamicProblem) := by
  simp only [← C45_isinstance, dynamismOf, isInstance_eq]
  cases c <;> decide +kernel

/-- Names that differ only in case give the same result. -/
theorem C45_case_insensitive (r : Registry Solver) (name name' : String) (c : ProblemClass)
    (h : lower name = lower name') : getByName lower r name c = getByName lower r name' c := by
  simp only [getByName, h]

/-- Whether a registration succeeds or fails, all names found before are still found and give the
same class. -/
theorem C45_no_replacement (arg : DynamismArg) (names : List String) (solver : Solver)
    (r : Registry Solver) (name : String) (c : ProblemClass) (s : Solver)
    (h : getByName lower r name c = .ok s) :
    getByName lower (register lower arg names solver r).1 name c = .ok s := by
  rw [getByName_ok] at h ⊢
  obtain ⟨d, h1, h2⟩ := h
  refine ⟨d, h1, ?_⟩
  cases arg with
  | other => exact h2
  | star => exact registerTypes_preserves _ _ _ _ _ _ _ _ h2
  | one e => exact registerTypes_preserves _ _ _ _ _ _ _ _ h2

/-- Registration of a name which is already taken for one of the kinds is an error. -/
theorem C45_taken_fails (arg : DynamismArg) (names : List String) (solver : Solver)
    (r : Registry Solver) (c : ProblemClass) (d : Dynamism) (hc : dynamismOf c = .ok d)
    (hd : d ∈ arg.types) (name : String) (hn : name ∈ names) (s : Solver)
    (h : getByName lower r name c = .ok s) :
    (register lower arg names solver r).2 = some .nameTaken := by
  rw [getByName_ok] at h
  obtain ⟨d', h1, h2⟩ := h
  have : d = d' := by rw [hc] at h1; simpa using h1
  subst this
  cases arg with
  | other => cases hd
  | star => exact registerTypes_taken _ _ _ _ _ d hd name hn s h2
  | one e => exact registerTypes_taken _ _ _ _ _ d hd name hn s h2

/-- After a history of successful registrations the lookup gives exactly what has been registered for
the kind of the problem under the name up to case. -/
theorem C45_history (history : List (DynamismArg × List String × Solver)) (r : Registry Solver)
    (h : registerAll lower history .empty = (r, none)) (name : String) (c : ProblemClass)
    (s : Solver) :
    getByName lower r name c = .ok s ↔
      ∃ d, dynamismOf c = .ok d ∧ ∃ e ∈ history, d ∈ e.1.types ∧
        (∃ n ∈ e.2.1, lower n = lower name) ∧ e.2.2 = s := by
  have gen : ∀ (history : List (DynamismArg × List String × Solver)) (r0 r : Registry Solver),
      registerAll lower history r0 = (r, none) → ∀ d k s, (r d).lookup k = some s ↔
        (r0 d).lookup k = some s ∨ ∃ e ∈ history, d ∈ e.1.types ∧
          (∃ n ∈ e.2.1, lower n = k) ∧ e.2.2 = s := by
    intro history
    induction history with
    | nil =>
      intro r0 r h d k s
      simp only [registerAll, Prod.mk.injEq, and_true] at h
      subst h; simp
    | cons e es ih =>
      intro r0 r h d k s
      obtain ⟨arg, names, solver⟩ := e
      unfold registerAll at h
      split at h
      · cases h
      · rename_i r1 heq
        have hreg : registerTypes lower solver names arg.types r0 = (r1, none) := by
          cases arg with
          | other => cases heq
          | star => exact heq
          | one e => exact heq
        rw [ih r1 r h d k s]
        constructor
        · rintro (h | ⟨e, he, h⟩)
          · have := registerTypes_only lower solver names arg.types r0 d k s (by rw [hreg]; exact h)
            rcases this with h | ⟨h1, h2, h3⟩
            · exact .inl h
            · exact .inr ⟨_, List.mem_cons_self, h1, h2, h3.symm⟩
          · exact .inr ⟨e, List.mem_cons_of_mem _ he, h⟩
        · rintro (h | ⟨e, he, h1, ⟨n, hn, hk⟩, h3⟩)
          · have := registerTypes_preserves lower solver names arg.types r0 d k s h
            rw [hreg] at this
            exact .inl this
          · rcases List.mem_cons.1 he with rfl | he
            · simp only at h1 hn h3
              subst h3 hk
              exact .inl (registerTypes_found lower solver names arg.types r0 r1 hreg d h1 n hn)
            · exact .inr ⟨e, he, h1, ⟨n, hn, hk⟩, h3⟩
  rw [getByName_ok]
  refine exists_congr fun d => and_congr_right fun _ => ?_
  rw [gen history _ r h]
  simp [Registry.empty]

/-- Unknown names are reported. -/
theorem C45_unknown_name (history : List (DynamismArg × List String × Solver)) (r : Registry Solver)
    (h : registerAll lower history .empty = (r, none)) (name : String) (c : ProblemClass)
    (d : Dynamism) (hc : dynamismOf c = .ok d)
    (hn : ∀ e ∈ history, d ∈ e.1.types → ∀ n ∈ e.2.1, lower n ≠ lower name) :
    getByName lower r name c = .error .unknownName := by
  cases hg : getByName lower r name c with
  | ok s =>
    obtain ⟨d', h1, e, he, h2, ⟨n, hn', h3⟩, -⟩ := (C45_history lower history r h name c s).1 hg
    have : d = d' := by rw [hc] at h1; simpa using h1
    subst this
    exact absurd h3 (hn e he h2 n hn')
  | error e =>
    unfold getByName at hg
    rw [hc] at hg
    simp only [bind, Except.bind] at hg
    split at hg
    · cases hg
    · exact hg.symm

/-- The names under which conmech registers its solvers. -/
def conmechNames : List String :=
  ["direct", "global", "global optimization", "schur", "schur complement", "schur complement method"]

theorem registerAll_congr (lower lower' : String → String) {Solver : Type _}
    (h : List (DynamismArg × List String × Solver)) (r : Registry Solver)
    (hl : ∀ e ∈ h, ∀ n ∈ e.2.1, lower n = lower' n) :
    registerAll lower h r = registerAll lower' h r := by
  have h1 : ∀ (s : Solver) (d : Dynamism) (names : List String) (r : Registry Solver),
      (∀ n ∈ names, lower n = lower' n) →
      registerNames lower s d names r = registerNames lower' s d names r := by
    intro s d names
    induction names with
    | nil => intros; rfl
    | cons n ns ih =>
      intro r hn
      unfold registerNames
      rw [hn n List.mem_cons_self, ih _ fun m hm => hn m (List.mem_cons_of_mem _ hm)]
  have h2 : ∀ (s : Solver) (names : List String) (ds : List Dynamism) (r : Registry Solver),
      (∀ n ∈ names, lower n = lower' n) →
      registerTypes lower s names ds r = registerTypes lower' s names ds r := by
    intro s names ds
    induction ds with
    | nil => intros; rfl
    | cons d ds ih =>
      intro r hn
      unfold registerTypes
      rw [h1 s d names r hn]
      split
      · rfl
      · exact ih _ hn
  induction h generalizing r with
  | nil => rfl
  | cons e es ih =>
    obtain ⟨arg, names, solver⟩ := e
    have hr : register lower arg names solver r = register lower' arg names solver r := by
      unfold register
      cases arg with
      | other => rfl
      | star => exact h2 _ _ _ _ (hl _ List.mem_cons_self)
      | one d => exact h2 _ _ _ _ (hl _ List.mem_cons_self)
    unfold registerAll
    rw [hr]
    split
    · rfl
    · exact ih _ fun e he => hl e (List.mem_cons_of_mem _ he)

/-- All registrations of conmech succeed. -/
theorem C45_conmech_registers (hl : ∀ n ∈ conmechNames, lower n = n) :
    ∃ r, registerAll lower conmechRegistrations .empty = (r, none) := by
  have : (registerAll lower conmechRegistrations (.empty : Registry SolverClass)).2 = none := by
    rw [registerAll_congr lower id]
    · decide +kernel
    · intro e he n hn
      rw [hl n]; · rfl
      have tbl : ∀ e ∈ conmechRegistrations, ∀ n ∈ e.2.1, n ∈ conmechNames := by decide +kernel
      exact tbl e he n hn
  exact ⟨_, Prod.ext rfl this⟩

/-- The name a solver prints resolves to the same solver again. -/
theorem C45_printed_name (r : Registry SolverClass)
    (h : registerAll lower conmechRegistrations .empty = (r, none)) (name : String)
    (c : ProblemClass) (s : SolverClass) (hs : getByName lower r name c = .ok s) :
    getByName lower r s.str c = .ok s := by
  rw [C45_history lower _ r h] at hs ⊢
  obtain ⟨d, h1, e, he, h2, -, h4⟩ := hs
  refine ⟨d, h1, e, he, h2, ⟨s.str, ?_, rfl⟩, h4⟩
  have tbl : ∀ e ∈ conmechRegistrations, e.2.2.str ∈ e.2.1 := by decide +kernel
  rw [← h4]
  exact tbl e he

/-- C80: every kind of problem can be solved with the Schur complement, under each of its names, and
with the method called "global". -/
theorem C80_schur_partial (r : Registry SolverClass)
    (h : registerAll lower conmechRegistrations .empty = (r, none)) (c : ProblemClass) (d : Dynamism)
    (hc : dynamismOf c = .ok d) :
    (∀ name ∈ ["schur", "schur complement", "schur complement method"],
      ∃ s, getByName lower r name c = .ok s ∧ s.isSchur = true) ∧
    (∀ name ∈ ["global", "global optimization"],
      ∃ s, getByName lower r name c = .ok s ∧ s.str = "global optimization") := by
  have t1 : ∀ d : Dynamism, ∀ name ∈ ["schur", "schur complement", "schur complement method"],
      ∃ e ∈ conmechRegistrations, d ∈ e.1.types ∧ name ∈ e.2.1 ∧ e.2.2.isSchur = true := by
    intro d; cases d <;> decide +kernel
  have t2 : ∀ d : Dynamism, ∀ name ∈ ["global", "global optimization"],
      ∃ e ∈ conmechRegistrations, d ∈ e.1.types ∧ name ∈ e.2.1 ∧ e.2.2.str = "global optimization" := by
    intro d; cases d <;> decide +kernel
  constructor
  · intro name hn
    obtain ⟨e, he, h1, h2, h3⟩ := t1 d name hn
    exact ⟨e.2.2, (C45_history lower _ r h name c _).2 ⟨d, hc, e, he, h1, ⟨name, h2, rfl⟩, rfl⟩, h3⟩
  · intro name hn
    obtain ⟨e, he, h1, h2, h3⟩ := t2 d name hn
    exact ⟨e.2.2, (C45_history lower _ r h name c _).2 ⟨d, hc, e, he, h1, ⟨name, h2, rfl⟩, rfl⟩, h3⟩

/-- C80: the direct method exists for static and dynamic problems, and for these only. -/
theorem C80_direct_partial (r : Registry SolverClass)
    (h : registerAll lower conmechRegistrations .empty = (r, none))
    (hl : ∀ n ∈ conmechNames, lower n = n) (c : ProblemClass) (d : Dynamism)
    (hc : dynamismOf c = .ok d) :
    getByName lower r "direct" c = .ok .direct ↔ d = .static ∨ d = .dynamic := by
  have tbl : ∀ e ∈ conmechRegistrations, ∀ n ∈ e.2.1, n ∈ conmechNames := by decide +kernel
  have hdir : lower "direct" = "direct" := hl _ (by decide +kernel)
  have t1 : ∀ d : Dynamism, (∃ e ∈ conmechRegistrations, d ∈ e.1.types ∧ "direct" ∈ e.2.1 ∧
      e.2.2 = SolverClass.direct) ↔ d = .static ∨ d = .dynamic := by
    intro d; cases d <;> decide +kernel
  rw [C45_history lower _ r h, ← t1 d]
  constructor
  · rintro ⟨d', h1, e, he, h2, ⟨n, hn, h3⟩, h4⟩
    rw [hc] at h1
    cases h1
    rw [hdir, hl n (tbl e he n hn)] at h3
    exact ⟨e, he, h2, h3 ▸ hn, h4⟩
  · rintro ⟨e, he, h2, h3, h4⟩
    exact ⟨d, hc, e, he, h2, ⟨_, h3, rfl⟩, h4⟩

/-- C80 is wrong: the method that the documentation of every simulation calls "optimization" exists for
no kind of problem. -/
theorem C80_optimization_wrong (r : Registry SolverClass)
    (h : registerAll lower conmechRegistrations .empty = (r, none))
    (hl : ∀ n ∈ "optimization" :: conmechNames, lower n = n) (c : ProblemClass) (d : Dynamism)
    (hc : dynamismOf c = .ok d) :
    getByName lower r "optimization" c = .error .unknownName := by
  refine C45_unknown_name lower _ r h _ c d hc fun e he _ n hn => ?_
  have tbl : ∀ e ∈ conmechRegistrations, ∀ n ∈ e.2.1, n ∈ conmechNames ∧ n ≠ "optimization" := by
    decide +kernel
  rw [hl _ List.mem_cons_self, hl n (List.mem_cons_of_mem _ (tbl e he n hn).1)]
  exact (tbl e he n hn).2

/-- C80 is wrong: the direct method does not exist for quasistatic problems, with or without
relaxation. -/
theorem C80_direct_wrong (r : Registry SolverClass)
    (h : registerAll lower conmechRegistrations .empty = (r, none))
    (hl : ∀ n ∈ conmechNames, lower n = n) (c : ProblemClass)
    (hc : dynamismOf c = .ok .quasistatic ∨ dynamismOf c = .ok .quasistaticRelaxation) :
    getByName lower r "direct" c = .error .unknownName := by
  have tbl : ∀ e ∈ conmechRegistrations,
      Dynamism.quasistatic ∈ e.1.types ∨ Dynamism.quasistaticRelaxation ∈ e.1.types →
      ∀ n ∈ e.2.1, n ∈ conmechNames ∧ n ≠ "direct" := by decide +kernel
  have key : ∀ d, dynamismOf c = .ok d → d = .quasistatic ∨ d = .quasistaticRelaxation →
      getByName lower r "direct" c = .error .unknownName := by
    intro d hcd hd
    refine C45_unknown_name lower _ r h _ c d hcd fun e he h2 n hn => ?_
    have := tbl e he (by rcases hd with rfl | rfl <;> simp only [h2, true_or, or_true]) n hn
    rw [hl "direct" (by decide +kernel), hl n this.1]
    exact this.2
  rcases hc with hc | hc
  · exact key _ hc (.inl rfl)
  · exact key _ hc (.inr rfl)

/-- The hypotheses of C80 are met by the lower case of strings. -/
example : ∀ n ∈ "optimization" :: conmechNames, n.toLower = n := by decide +kernel
example : dynamismOf .RelaxationQuasistaticProblem = .ok .quasistaticRelaxation ∧
    dynamismOf .WaveProblem = .ok .dynamic ∧ dynamismOf .PoissonProblem = .ok .static := by
  simp only [dynamismOf, isInstance_eq]; decide +kernel

/-- Non-trivial instances: `lower` fixes the names, a lookup succeeds with other case, one fails. -/
example : ∀ n ∈ conmechNames, n.toLower = n := by decide +kernel

example (r : Registry SolverClass)
    (h : registerAll String.toLower conmechRegistrations .empty = (r, none)) :
    getByName String.toLower r "Schur Complement" .DynamicDisplacementProblem = .ok .dynamicSchur ∧
    getByName String.toLower r "direct" .QuasistaticDisplacementProblem = .error .unknownName := by
  have e1 : ("Schur Complement" : String).toLower = "schur complement" := by decide +kernel
  have fix : ∀ n ∈ conmechNames, n.toLower = n := by decide +kernel
  have e2 := fix "schur complement" (by decide +kernel)
  have e3 := fix "direct" (by decide +kernel)
  constructor
  · rw [C45_history _ _ r h]
    refine ⟨.dynamic, by simp only [dynamismOf, isInstance_eq]; decide +kernel,
      (.one .dynamic, ["schur", "schur complement", "schur complement method"], .dynamicSchur),
      by simp [conmechRegistrations], by decide +kernel, ⟨"schur complement", by decide +kernel, ?_⟩, rfl⟩
    rw [e1, e2]
  · refine C45_unknown_name _ _ r h _ _ .quasistatic
      (by simp only [dynamismOf, isInstance_eq]; decide +kernel) ?_
    intro e he hd n hn
    have tbl : ∀ e ∈ conmechRegistrations, Dynamism.quasistatic ∈ e.1.types → ∀ n ∈ e.2.1,
      n ∈ conmechNames ∧ n ≠ "direct" := by decide +kernel
    rw [e3, fix n (tbl e he hd n hn).1]
    exact (tbl e he hd n hn).2

end Conmech
