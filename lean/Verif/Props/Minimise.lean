import Verif.Spec.Minimise
import Mathlib.Tactic.Linarith
import Mathlib.Tactic.NormNum
import Mathlib.Tactic.IntervalCases
import Mathlib.Algebra.Order.Field.Rat
/-!
C76: which minimiser is used and with which options. C77: the constrained method.
-/
namespace Conmech
open Spec

section
variable {K L D : Type*} (lower : String → String) (tolDefault : K) (loss : L) (subgradient : Option D)
  (rows : ℕ) (o : MinimiseOptions K)

theorem startsWith_iff (s pre : String) : startsWith s pre = true ↔ ∃ rest, s = pre ++ rest := by
  unfold startsWith
  rw [List.isPrefixOf_iff_prefix]
  constructor
  · rintro ⟨t, ht⟩
    refine ⟨String.ofList t, ?_⟩
    apply String.toList_injective
    rw [String.toList_append, String.toList_ofList]
    exact ht.symm
  · rintro ⟨rest, rfl⟩
    exact ⟨rest.toList, (String.toList_append ..).symm⟩

theorem global_iff (s : String) :
    (globalQsmlmNames.any fun pre => startsWith s pre) = true ↔ AsksFor s .globalQsmlm := by
  rw [List.any_eq_true]
  constructor
  · rintro ⟨p, hp, hs⟩
    exact Or.inr ⟨rfl, p, hp, (startsWith_iff _ _).1 hs⟩
  · rintro (h | ⟨-, p, hp, hs⟩)
    · exact ⟨s, h, (startsWith_iff _ _).2 ⟨"", by simp⟩⟩
    · exact ⟨p, hp, (startsWith_iff _ _).2 hs⟩

/-- No name of another minimiser begins with the name of a global one. -/
theorem names_disjoint (s : String) (b : Backend) (hb : b ≠ .globalQsmlm) (h : s ∈ names b) :
    ¬ AsksFor s .globalQsmlm := by
  rw [← global_iff]
  have key : ∀ l ∈ [names .adam, names .qsmlm, names .discontinuous, names .constrained], ∀ s ∈ l,
      ¬ (globalQsmlmNames.any fun pre => startsWith s pre) = true := by decide +kernel
  cases b with
  | globalQsmlm => exact absurd rfl hb
  | scipy m => cases h
  | adam => exact key _ (by simp) s h
  | qsmlm => exact key _ (by simp) s h
  | discontinuous => exact key _ (by simp) s h
  | constrained => exact key _ (by simp) s h

theorem asksFor_unique (s : String) (b b' : Backend) (h : AsksFor s b) (h' : AsksFor s b') : b = b' := by
  by_cases hb : b = .globalQsmlm
  · subst hb
    by_contra hne
    rcases h' with h' | ⟨rfl, -⟩
    · exact names_disjoint s b' (Ne.symm hne) h' h
    · exact hne rfl
  by_cases hb' : b' = .globalQsmlm
  · subst hb'
    rcases h with h | ⟨rfl, -⟩
    · exact absurd h' (names_disjoint s b hb h)
    · rfl
  have h1 : s ∈ names b := h.resolve_right fun h => hb h.1
  have h2 : s ∈ names b' := h'.resolve_right fun h => hb' h.1
  have key : ∀ s ∈ names .adam ++ names .qsmlm ++ names .discontinuous ++ names .constrained,
      ∀ b ∈ [Backend.adam, .qsmlm, .discontinuous, .constrained],
      ∀ b' ∈ [Backend.adam, .qsmlm, .discontinuous, .constrained],
        s ∈ names b → s ∈ names b' → b = b' := by decide +kernel
  have hm : ∀ b, b ≠ .globalQsmlm → s ∈ names b →
      b ∈ [Backend.adam, .qsmlm, .discontinuous, .constrained] ∧
      s ∈ names .adam ++ names .qsmlm ++ names .discontinuous ++ names .constrained := by
    intro b hb h
    cases b with
    | globalQsmlm => exact absurd rfl hb
    | scipy m => cases h
    | adam => exact ⟨by simp, by simp [h]⟩
    | qsmlm => exact ⟨by simp, by simp [h]⟩
    | discontinuous => exact ⟨by simp, by simp [h]⟩
    | constrained => exact ⟨by simp, by simp [h]⟩
  exact key s (hm b hb h1).2 b (hm b hb h1).1 b' (hm b' hb' h2).1 h1 h2

/-- The cases of `minimise`. -/
theorem minimise_cases (minimizer : Option (L × Option D)) (call : MinimiseCall K L D)
    (m' : Option (L × Option D))
    (h : minimise lower tolDefault loss subgradient rows o minimizer = .ok (call, m')) :
    let method := o.method.getD "BFGS"
    let maxiter := o.maxiter.getD (rows * 1000)
    let tol := o.tol.getD tolDefault
    (AsksFor (lower method) .adam ∧ call = ⟨.adam, loss, subgradient, maxiter * 100, none⟩) ∨
    (AsksFor (lower method) .qsmlm ∧ ∃ l d, m' = some (l, d) ∧ call = ⟨.qsmlm, l, d, maxiter, none⟩) ∨
    (AsksFor (lower method) .globalQsmlm ∧ call = ⟨.globalQsmlm, loss, subgradient, maxiter, none⟩) ∨
    (AsksFor (lower method) .discontinuous ∧ call = ⟨.discontinuous, loss, none, 10000, none⟩) ∨
    (AsksFor (lower method) .constrained ∧
      call = ⟨.constrained, loss, none, o.maxiter.getD (rows * 1000000000), some tol⟩) ∨
    ((∀ b, ¬ AsksFor (lower method) b) ∧
      ((∃ n, method = "gradiented " ++ n ∧ call = ⟨.scipy n, loss, subgradient, maxiter, some tol⟩) ∨
       (¬ ∃ n, method = "gradiented " ++ n) ∧ call = ⟨.scipy method, loss, none, maxiter, some tol⟩)) := by
  intro method maxiter tol
  have hsc : ∀ (s m : String), ¬ AsksFor s (.scipy m) := by
    rintro s m (h | ⟨h, -⟩)
    · cases h
    · cases h
  have hmem : ∀ s, (∀ b, b ≠ Backend.globalQsmlm → (AsksFor s b ↔ s ∈ names b)) := by
    intro s b hb
    exact ⟨fun h => h.resolve_right fun h => hb h.1, Or.inl⟩
  unfold minimise at h
  simp only at h
  generalize (if (minimizer.isNone && _) = true then some (loss, subgradient) else minimizer) = M at h
  split_ifs at h with h1 h2 h3 h4 h5 h6
  · simp only [Except.ok.injEq, Prod.mk.injEq] at h
    refine Or.inl ⟨Or.inl (List.contains_iff_mem.1 h1), h.1.symm⟩
  · split at h
    · rename_i l d
      simp only [Except.ok.injEq, Prod.mk.injEq] at h
      exact Or.inr (Or.inl ⟨Or.inl (List.contains_iff_mem.1 h2), l, d, h.2.symm, h.1.symm⟩)
    · cases h
  · split at h
    · simp only [Except.ok.injEq, Prod.mk.injEq] at h
      exact Or.inr (Or.inr (Or.inl ⟨(global_iff _).1 h3, h.1.symm⟩))
    · cases h
  · simp only [Except.ok.injEq, Prod.mk.injEq] at h
    exact Or.inr (Or.inr (Or.inr (Or.inl ⟨Or.inl (List.contains_iff_mem.1 h4), h.1.symm⟩)))
  · simp only [Except.ok.injEq, Prod.mk.injEq] at h
    refine Or.inr (Or.inr (Or.inr (Or.inr (Or.inl ⟨Or.inl ?_, h.1.symm⟩))))
    rw [h5]
    exact List.mem_singleton.2 rfl
  all_goals
    simp only [Except.ok.injEq, Prod.mk.injEq] at h
    refine Or.inr (Or.inr (Or.inr (Or.inr (Or.inr ⟨?_, ?_⟩))))
    · intro b hb
      cases b with
      | adam => exact h1 (List.contains_iff_mem.2 ((hmem _ _ (by decide)).1 hb))
      | qsmlm => exact h2 (List.contains_iff_mem.2 ((hmem _ _ (by decide)).1 hb))
      | globalQsmlm => exact h3 ((global_iff _).2 hb)
      | discontinuous => exact h4 (List.contains_iff_mem.2 ((hmem _ _ (by decide)).1 hb))
      | constrained => exact h5 (List.mem_singleton.1 ((hmem _ _ (by decide)).1 hb))
      | scipy m => exact hsc _ _ hb
  · obtain ⟨n, hn⟩ := (startsWith_iff _ _).1 h6
    refine Or.inl ⟨n, hn, ?_⟩
    rw [← h.1]
    congr 2
    have : (o.method.getD "BFGS").toList = "gradiented ".toList ++ n.toList := by
      rw [hn, String.toList_append]
    rw [this, show "gradiented ".length = "gradiented ".toList.length from rfl, List.drop_left,
      String.ofList_toList]
  · refine Or.inr ⟨fun hn => h6 ((startsWith_iff _ _).2 hn), h.1.symm⟩

/-- No call fails: the quasi secant minimiser is made before it is needed. -/
theorem minimise_ok (minimizer : Option (L × Option D)) :
    ∃ r, minimise lower tolDefault loss subgradient rows o minimizer = .ok r := by
  unfold minimise
  simp only
  cases hq : qsmlmNames.contains (lower (o.method.getD "BFGS")) <;>
    cases hg : (globalQsmlmNames.any fun pre => startsWith (lower (o.method.getD "BFGS")) pre) <;>
    cases minimizer <;> simp <;> split_ifs <;> simp

/-- C76. The minimiser is the one that the name asks for, whatever its case; other names are handed on
to scipy, where `"gradiented "` in front of a name asks for the derivative. -/
theorem C76_backend (minimizer : Option (L × Option D)) :
    ∃ call m', minimise lower tolDefault loss subgradient rows o minimizer = .ok (call, m') ∧
      (∀ b, (∀ m, b ≠ .scipy m) → (call.backend = b ↔ AsksFor (lower (o.method.getD "BFGS")) b)) ∧
      ∀ n, call.backend = .scipy n ↔
        (∀ b, ¬ AsksFor (lower (o.method.getD "BFGS")) b) ∧
        (o.method.getD "BFGS" = "gradiented " ++ n ∨
          o.method.getD "BFGS" = n ∧ ¬ ∃ k, n = "gradiented " ++ k) := by
  obtain ⟨⟨call, m'⟩, h⟩ := minimise_ok lower tolDefault loss subgradient rows o minimizer
  refine ⟨call, m', h, ?_⟩
  have hc := minimise_cases lower tolDefault loss subgradient rows o minimizer call m' h
  simp only at hc
  generalize o.method.getD "BFGS" = method at *
  have base : ∀ b0, AsksFor (lower method) b0 → call.backend = b0 → (∀ m, b0 ≠ .scipy m) →
      (∀ b, (∀ m, b ≠ .scipy m) → (call.backend = b ↔ AsksFor (lower method) b)) ∧
      ∀ n, call.backend = .scipy n ↔ (∀ b, ¬ AsksFor (lower method) b) ∧
        (method = "gradiented " ++ n ∨ method = n ∧ ¬ ∃ k, n = "gradiented " ++ k) := by
    intro b0 h0 h1 h2
    refine ⟨fun b hb => ⟨?_, ?_⟩, fun n => ⟨?_, ?_⟩⟩
    · intro h; rw [← h, h1]; exact h0
    · intro h; rw [h1]; exact asksFor_unique _ _ _ h0 h
    · intro h; exact absurd (h1.symm.trans h) (h2 n)
    · intro h; exact absurd h0 (h.1 b0)
  rcases hc with ⟨h1, rfl⟩ | ⟨h1, l, d, -, rfl⟩ | ⟨h1, rfl⟩ | ⟨h1, rfl⟩ | ⟨h1, rfl⟩ | ⟨h1, h2⟩
  · exact base _ h1 rfl (by simp)
  · exact base _ h1 rfl (by simp)
  · exact base _ h1 rfl (by simp)
  · exact base _ h1 rfl (by simp)
  · exact base _ h1 rfl (by simp)
  · have hcancel : ∀ a b : String, "gradiented " ++ a = "gradiented " ++ b → a = b := by
      intro a b h
      have := congrArg String.toList h
      rw [String.toList_append, String.toList_append] at this
      exact String.toList_injective (List.append_cancel_left this)
    rcases h2 with ⟨k, hk, rfl⟩ | ⟨hk, rfl⟩
    · refine ⟨fun b hb => ⟨fun h => absurd h.symm (hb k), fun h => absurd h (h1 b)⟩, fun n => ⟨?_, ?_⟩⟩
      · intro h
        have : k = n := by simpa using h
        subst this
        exact ⟨h1, Or.inl hk⟩
      · rintro ⟨-, h | ⟨h, hn⟩⟩
        · rw [hk] at h
          rw [hcancel _ _ h]
        · exact absurd ⟨k, h.symm.trans hk⟩ hn
    · refine ⟨fun b hb => ⟨fun h => absurd h.symm (hb _), fun h => absurd h (h1 b)⟩, fun n => ⟨?_, ?_⟩⟩
      · intro h
        have : method = n := by simpa using h
        subst this
        exact ⟨h1, Or.inr ⟨rfl, hk⟩⟩
      · rintro ⟨-, h | ⟨h, hn⟩⟩
        · exact absurd ⟨n, h⟩ hk
        · rw [h]

/-- C76. Without a method the one of Broyden, Fletcher, Goldfarb and Shanno is used, without
derivative. -/
theorem C76_default (hl : lower "BFGS" = "bfgs") (ho : o.method = none)
    (minimizer : Option (L × Option D)) :
    ∃ call m', minimise lower tolDefault loss subgradient rows o minimizer = .ok (call, m') ∧
      call.backend = .scipy "BFGS" ∧ call.derivative = none := by
  obtain ⟨⟨call, m'⟩, h⟩ := minimise_ok lower tolDefault loss subgradient rows o minimizer
  refine ⟨call, m', h, ?_⟩
  have hc := minimise_cases lower tolDefault loss subgradient rows o minimizer call m' h
  simp only [ho, Option.getD_none, hl] at hc
  have hn : ∀ b, ¬ AsksFor "bfgs" b := by
    intro b
    by_cases hg : b = .globalQsmlm
    · subst hg
      rw [← global_iff]
      decide +kernel
    · rintro (h | ⟨h, -⟩)
      · cases b <;> revert h <;> simp [names]
      · exact hg h
  rcases hc with ⟨h1, -⟩ | ⟨h1, -⟩ | ⟨h1, -⟩ | ⟨h1, -⟩ | ⟨h1, -⟩ | ⟨-, ⟨k, hk, -⟩ | ⟨-, rfl⟩⟩
  · exact absurd h1 (hn _)
  · exact absurd h1 (hn _)
  · exact absurd h1 (hn _)
  · exact absurd h1 (hn _)
  · exact absurd h1 (hn _)
  · exact absurd ((startsWith_iff _ _).2 ⟨k, hk⟩) (by decide +kernel)
  · exact ⟨rfl, rfl⟩

open Classical in
/-- C76. In any sequence of calls no call fails, and each minimises the functional of the solver. The
subgradient of the law is used by the methods `adam`, quasi secant and global quasi secant, and by those
of scipy whose name follows `"gradiented "`; the others get none. -/
theorem C76_functional (os : List (ℕ × MinimiseOptions K)) :
    ∃ cs m, calls lower tolDefault loss subgradient os none = .ok (cs, m) ∧ cs.length = os.length ∧
      ∀ (i : ℕ) (hi : i < os.length) (c : MinimiseCall K L D), cs[i]? = some c →
        c.functional = loss ∧
        c.derivative = if c.backend = .adam ∨ c.backend = .qsmlm ∨ c.backend = .globalQsmlm ∨
          (∃ n, c.backend = .scipy n ∧ (os[i]).2.method = some ("gradiented " ++ n)) then subgradient
          else none := by
  have key : ∀ (os : List (ℕ × MinimiseOptions K)) (m0 : Option (L × Option D)),
      (m0 = none ∨ m0 = some (loss, subgradient)) →
      ∃ cs m, calls lower tolDefault loss subgradient os m0 = .ok (cs, m) ∧ cs.length = os.length ∧
      ∀ (i : ℕ) (hi : i < os.length) (c : MinimiseCall K L D), cs[i]? = some c →
        c.functional = loss ∧
        c.derivative = if c.backend = .adam ∨ c.backend = .qsmlm ∨ c.backend = .globalQsmlm ∨
          (∃ n, c.backend = .scipy n ∧ (os[i]).2.method = some ("gradiented " ++ n)) then subgradient
          else none := by
    intro os
    induction os with
    | nil => intro m0 _; exact ⟨[], m0, rfl, rfl, fun i hi => absurd hi (by simp)⟩
    | cons p os ih =>
      intro m0 hm0
      obtain ⟨rows, o⟩ := p
      obtain ⟨⟨call, m1⟩, h⟩ := minimise_ok lower tolDefault loss subgradient rows o m0
      have hm1 : m1 = none ∨ m1 = some (loss, subgradient) := by
        have h' := h
        unfold minimise at h'
        simp only at h'
        have hM : ∀ b : Bool, (if (m0.isNone && b) = true then some (loss, subgradient) else m0) = none ∨
            (if (m0.isNone && b) = true then some (loss, subgradient) else m0) =
              some (loss, subgradient) := by
          intro b
          rcases hm0 with rfl | rfl <;> cases b <;> simp
        revert h'
        generalize hb : (qsmlmNames.contains (lower (o.method.getD "BFGS")) || _) = b
        intro h'
        have hMb := hM b
        revert hMb h'
        generalize (if (m0.isNone && b) = true then some (loss, subgradient) else m0) = M
        intro h' hMb
        split_ifs at h'
        all_goals first
          | (simp only [Except.ok.injEq, Prod.mk.injEq] at h'; rw [← h'.2]; exact hMb)
          | (split at h'
             · simp only [Except.ok.injEq, Prod.mk.injEq] at h'; rw [← h'.2]; exact hMb
             · cases h')
      obtain ⟨cs, m, h1, h2, h3⟩ := ih m1 hm1
      refine ⟨call :: cs, m, by simp only [calls, h, h1], by simp [h2], ?_⟩
      intro i hi c hc
      cases i with
      | succ i =>
        simp only [List.getElem_cons_succ]
        exact h3 i (by simpa using hi) c (by simpa using hc)
      | zero =>
        simp only [List.getElem?_cons_zero, Option.some.injEq] at hc
        subst hc
        simp only [List.getElem_cons_zero]
        have hcs := minimise_cases lower tolDefault loss subgradient rows o m0 call m1 h
        rcases hcs with ⟨-, rfl⟩ | ⟨-, l, d, hm, rfl⟩ | ⟨-, rfl⟩ | ⟨-, rfl⟩ | ⟨-, rfl⟩ | ⟨-, ⟨k, hk, rfl⟩ | ⟨hk, rfl⟩⟩
        · simp
        · rw [hm] at hm1
          simp at hm1
          simp [hm1]
        · simp
        · simp
        · simp
        · have : o.method = some ("gradiented " ++ k) := by
            cases ho : o.method with
            | none =>
              rw [ho] at hk
              exact absurd ((startsWith_iff _ _).2 ⟨k, hk⟩) (by decide +kernel)
            | some m => rw [ho] at hk; simpa using hk
          simp [this]
        · refine ⟨rfl, ?_⟩
          rw [if_neg]
          rintro (h | h | h | ⟨n, h, hn⟩)
          · cases h
          · cases h
          · cases h
          · exact hk ⟨n, by rw [hn]; rfl⟩
  exact key os none (Or.inl rfl)

/-- C76. The limit on the number of iterations and the tolerance given by the user are used, except that
the discontinuous gradient method has a fixed limit, Adam makes a hundred times more iterations and only
the methods of scipy know a tolerance. -/
theorem C76_options_partial (minimizer : Option (L × Option D)) (call : MinimiseCall K L D)
    (m' : Option (L × Option D)) (n : ℕ) (tol : K) (hn : o.maxiter = some n) (ht : o.tol = some tol)
    (h : minimise lower tolDefault loss subgradient rows o minimizer = .ok (call, m')) :
    (call.backend ≠ .discontinuous → call.backend ≠ .adam → call.maxiter = n) ∧
    (call.backend = .constrained ∨ (∃ m, call.backend = .scipy m) → call.tol = some tol) := by
  have hc := minimise_cases lower tolDefault loss subgradient rows o minimizer call m' h
  rcases hc with ⟨-, rfl⟩ | ⟨-, l, d, -, rfl⟩ | ⟨-, rfl⟩ | ⟨-, rfl⟩ | ⟨-, rfl⟩ | ⟨-, ⟨k, -, rfl⟩ | ⟨-, rfl⟩⟩ <;>
    simp [hn, ht]

/-- C76, violated: the limit given to the discontinuous gradient method has no effect, and that given to
Adam is multiplied by a hundred. -/
theorem C76_limit_wrong (minimizer : Option (L × Option D)) (m : String) (n : ℕ) (tol : Option K) :
    (AsksFor (lower m) .discontinuous → ∃ call m',
      minimise lower tolDefault loss subgradient rows ⟨some m, some n, tol⟩ minimizer = .ok (call, m') ∧
      call.maxiter = 10000) ∧
    (AsksFor (lower m) .adam → ∃ call m',
      minimise lower tolDefault loss subgradient rows ⟨some m, some n, tol⟩ minimizer = .ok (call, m') ∧
      call.maxiter = 100 * n) := by
  obtain ⟨⟨call, m'⟩, h⟩ := minimise_ok lower tolDefault loss subgradient rows ⟨some m, some n, tol⟩ minimizer
  have hc := minimise_cases lower tolDefault loss subgradient rows _ minimizer call m' h
  simp only [Option.getD_some] at hc
  refine ⟨fun ha => ⟨call, m', h, ?_⟩, fun ha => ⟨call, m', h, ?_⟩⟩
  · rcases hc with ⟨h1, rfl⟩ | ⟨h1, l, d, -, rfl⟩ | ⟨h1, rfl⟩ | ⟨h1, rfl⟩ | ⟨h1, rfl⟩ | ⟨h1, -⟩
    · cases asksFor_unique _ _ _ ha h1
    · cases asksFor_unique _ _ _ ha h1
    · cases asksFor_unique _ _ _ ha h1
    · rfl
    · cases asksFor_unique _ _ _ ha h1
    · exact absurd ha (h1 _)
  · rcases hc with ⟨h1, rfl⟩ | ⟨h1, l, d, -, rfl⟩ | ⟨h1, rfl⟩ | ⟨h1, rfl⟩ | ⟨h1, rfl⟩ | ⟨h1, -⟩
    · exact Nat.mul_comm _ _
    · cases asksFor_unique _ _ _ ha h1
    · cases asksFor_unique _ _ _ ha h1
    · cases asksFor_unique _ _ _ ha h1
    · cases asksFor_unique _ _ _ ha h1
    · exact absurd ha (h1 _)

/-- C76, violated: the word `"gradiented"` is only recognised in lower case, while all other names may be
written in any case. The name is then handed on as it is, without derivative. -/
theorem C76_gradiented_wrong (m : String) (hm : ∀ n, m ≠ "gradiented " ++ n)
    (hn : ∀ b, ¬ AsksFor (lower m) b) (maxiter : Option ℕ) (tol : Option K)
    (minimizer : Option (L × Option D)) :
    ∃ call m', minimise lower tolDefault loss subgradient rows ⟨some m, maxiter, tol⟩ minimizer =
      .ok (call, m') ∧ call.backend = .scipy m ∧ call.derivative = none := by
  obtain ⟨⟨call, m'⟩, h⟩ := minimise_ok lower tolDefault loss subgradient rows ⟨some m, maxiter, tol⟩ minimizer
  have hc := minimise_cases lower tolDefault loss subgradient rows _ minimizer call m' h
  simp only [Option.getD_some] at hc
  refine ⟨call, m', h, ?_⟩
  rcases hc with ⟨h1, -⟩ | ⟨h1, -⟩ | ⟨h1, -⟩ | ⟨h1, -⟩ | ⟨h1, -⟩ | ⟨-, ⟨k, hk, -⟩ | ⟨-, rfl⟩⟩
  · exact absurd h1 (hn _)
  · exact absurd h1 (hn _)
  · exact absurd h1 (hn _)
  · exact absurd h1 (hn _)
  · exact absurd h1 (hn _)
  · exact absurd hk (hm k)
  · exact ⟨rfl, rfl⟩

/-- C76. Runners of problems with one equation use the options given to them. -/
theorem C76_runner_partial (r : RunnerKind) (h1 : r ≠ .temperature) (h2 : r ≠ .piezoelectric) :
    r.options o = o := by
  cases r <;> first | rfl | exact absurd rfl h1 | exact absurd rfl h2

/-- C76, violated: the runners of coupled problems ignore the options; whatever method is asked for, the
default one is used. -/
theorem C76_coupled_wrong (hl : lower "BFGS" = "bfgs") (r : RunnerKind)
    (hr : r = .temperature ∨ r = .piezoelectric) (minimizer : Option (L × Option D)) :
    ∃ call m', minimise lower tolDefault loss subgradient rows (r.options o) minimizer = .ok (call, m') ∧
      call.backend = .scipy "BFGS" ∧ call.maxiter = rows * 1000 ∧ call.tol = some tolDefault := by
  have ho : r.options o = {} := by rcases hr with rfl | rfl <;> rfl
  obtain ⟨call, m', h, hb, -⟩ := C76_default lower tolDefault loss subgradient rows (r.options o) hl
    (by rw [ho]) minimizer
  refine ⟨call, m', h, hb, ?_⟩
  have hc := minimise_cases lower tolDefault loss subgradient rows _ minimizer call m' h
  rw [ho] at hc
  rcases hc with ⟨-, rfl⟩ | ⟨-, l, d, -, rfl⟩ | ⟨-, rfl⟩ | ⟨-, rfl⟩ | ⟨-, rfl⟩ | ⟨-, ⟨k, -, rfl⟩ | ⟨-, rfl⟩⟩
  · cases hb
  · cases hb
  · cases hb
  · cases hb
  · cases hb
  · exact ⟨rfl, rfl⟩
  · exact ⟨rfl, rfl⟩

/-- C76. With a flat guess the default limit of a scipy method is a thousand times the number of
unknowns. -/
theorem C76_default_limit_partial (s : ArrayShape) (n : ℕ) (hs : s = .flat n) (hn : o.maxiter = none)
    (minimizer : Option (L × Option D)) (call : MinimiseCall K L D) (m' : Option (L × Option D))
    (h : minimise lower tolDefault loss subgradient s.len o minimizer = .ok (call, m'))
    (m : String) (hb : call.backend = .scipy m) : call.maxiter = 1000 * s.size := by
  subst hs
  have hc := minimise_cases lower tolDefault loss subgradient _ _ minimizer call m' h
  simp only [hn, Option.getD_none, ArrayShape.len, ArrayShape.size] at hc ⊢
  rcases hc with ⟨-, rfl⟩ | ⟨-, l, d, -, rfl⟩ | ⟨-, rfl⟩ | ⟨-, rfl⟩ | ⟨-, rfl⟩ | ⟨-, ⟨k, -, rfl⟩ | ⟨-, rfl⟩⟩ <;>
    first | (cases hb; done) | exact Nat.mul_comm _ _

/-- C76, violated: for plane displacement problems the default limit does not grow with the number of
unknowns: it is 2000 for the global method and 1000 for the condensed one. -/
theorem C76_default_limit_wrong (cls : SolverClass) (N contactCount : ℕ) (hn : o.maxiter = none)
    (minimizer : Option (L × Option D)) (call : MinimiseCall K L D) (m' : Option (L × Option D))
    (h : minimise lower tolDefault loss subgradient
      (cls.guess 2 contactCount false (guessShape 2 N)).len o minimizer = .ok (call, m'))
    (m : String) (hb : call.backend = .scipy m) :
    call.maxiter = (if cls.isSchur then 1000 else 2000) ∧
    (cls.guess 2 contactCount false (guessShape 2 N)).size =
      if cls.isSchur then 2 * contactCount else 2 * N := by
  have hc := minimise_cases lower tolDefault loss subgradient _ _ minimizer call m' h
  have hlen : (cls.guess 2 contactCount false (guessShape 2 N)).len = if cls.isSchur then 1 else 2 := by
    unfold SolverClass.guess
    cases cls.isSchur <;> simp [truncatedShape, guessShape, ArrayShape.len]
  refine ⟨?_, ?_⟩
  · simp only [hn, Option.getD_none, hlen] at hc ⊢
    rcases hc with ⟨-, rfl⟩ | ⟨-, l, d, -, rfl⟩ | ⟨-, rfl⟩ | ⟨-, rfl⟩ | ⟨-, rfl⟩ | ⟨-, ⟨k, -, rfl⟩ | ⟨-, rfl⟩⟩ <;>
      first | (cases hb; done) | (cases cls.isSchur <;> rfl)
  · unfold SolverClass.guess
    cases cls.isSchur <;> simp [truncatedShape, guessShape, ArrayShape.size]

end

/-- A function which lowers the letters of the names below. -/
def exampleLower (s : String) : String :=
  if s = "BFGS" then "bfgs" else if s = "QSM" then "qsm" else
  if s = "Gradiented BFGS" then "gradiented bfgs" else s

example : exampleLower "BFGS" = "bfgs" ∧
    (∀ n, "Gradiented BFGS" ≠ "gradiented " ++ n) ∧
    (∀ b, ¬ AsksFor (exampleLower "Gradiented BFGS") b) ∧
    AsksFor (exampleLower "QSM") .qsmlm ∧ AsksFor "globqsmlm 7" .globalQsmlm := by
  refine ⟨by decide, fun n h => ?_, fun b => ?_, Or.inl (by decide), Or.inr ⟨rfl, "globqsmlm", by decide, " 7", by decide⟩⟩
  · exact absurd ((startsWith_iff _ _).2 ⟨n, h⟩) (by decide +kernel)
  · have he : exampleLower "Gradiented BFGS" = "gradiented bfgs" := by decide
    rw [he]
    by_cases hg : b = .globalQsmlm
    · subst hg
      rw [← global_iff]
      decide +kernel
    · rintro (h | ⟨h, -⟩)
      · cases b <;> revert h <;> simp [names]
      · exact hg h

/-! ### The constrained method -/

section
variable {K : Type*} [LinearOrder K]

theorem le_foldl_min (l : List K) (a b : K) : b ≤ l.foldl min a ↔ b ≤ a ∧ ∀ x ∈ l, b ≤ x := by
  induction l generalizing a with
  | nil => simp
  | cons c l ih =>
    rw [List.foldl_cons, ih, le_min_iff]
    simp only [List.mem_cons, forall_eq_or_imp]
    tauto

theorem constr_spec (c n : ℕ) (x : ℕ → K) (hc : 0 < c) (hn : 0 < n) (b : K) :
    ∃ v, constr c n x = some v ∧ (b ≤ v ↔ ∀ i < min c (n - n / 2), b ≤ x (n / 2 + i)) := by
  unfold constr
  simp only
  have hpos : 0 < min c (n - n / 2) := by omega
  generalize min c (n - n / 2) = k at hpos
  cases hl : (List.range k).map fun i => x (n / 2 + i) with
  | nil =>
    have := congrArg List.length hl
    simp at this
    omega
  | cons a rest =>
    refine ⟨_, rfl, ?_⟩
    rw [le_foldl_min]
    have h1 : (∀ y ∈ a :: rest, b ≤ y) ↔ ∀ i < k, b ≤ x (n / 2 + i) := by
      rw [← hl]; simp
    rw [← h1]
    simp

end

section
variable {K : Type*} [Field K] [LinearOrder K]

/-- C77. With two unknowns per node the constraint says that the second coordinate of all contact nodes
is not negative: of the displacement in static problems. -/
theorem C77_plane_partial (N c : ℕ) (hc : 0 < c) (hcN : c ≤ N) (x : ℕ → K) :
    ∃ v, constr c (2 * N) x = some v ∧ (0 ≤ v ↔ ∀ node < c, 0 ≤ x (1 * N + node)) := by
  obtain ⟨v, h1, h2⟩ := constr_spec c (2 * N) x hc (by omega) 0
  refine ⟨v, h1, h2.trans ?_⟩
  rw [show 2 * N / 2 = N by omega, show min c (2 * N - N) = c by omega, Nat.one_mul]

/-- C77, violated: with one unknown per node other nodes are constrained. Whatever the mesh (two nodes at
least), there are unknowns with a negative value at a contact node which meet the constraint, and if the
contact nodes are at most half of the nodes, there are unknowns with no negative value there which do
not. -/
theorem C77_scalar_wrong [IsStrictOrderedRing K] (N c : ℕ) (hN : 2 ≤ N) (hc : 0 < c) (hcN : c ≤ N) :
    (∃ x : ℕ → K, x 0 < 0 ∧ ∃ v, constr c N x = some v ∧ 0 ≤ v) ∧
    (2 * c ≤ N → ∃ x : ℕ → K, (∀ node < c, 0 ≤ x node) ∧ ∃ v, constr c N x = some v ∧ v < 0) := by
  refine ⟨⟨fun i => if i = 0 then -1 else 0, by simp, ?_⟩, fun h2 =>
    ⟨fun i => if i < c then 0 else -1, fun node h => by simp [h], ?_⟩⟩
  · obtain ⟨v, h1, h2⟩ := constr_spec c N (fun i => if i = 0 then (-1 : K) else 0) hc (by omega) 0
    refine ⟨v, h1, h2.2 fun i _ => ?_⟩
    rw [if_neg (by omega)]
  · obtain ⟨v, h1, h3⟩ := constr_spec c N (fun i => if i < c then (0 : K) else -1) hc (by omega) 0
    refine ⟨v, h1, ?_⟩
    by_contra hv
    have := h3.1 (not_lt.1 hv) 0 (by omega)
    rw [if_neg (by omega)] at this
    linarith [zero_lt_one (α := K)]

/-- C77, violated: with three unknowns per node neither the second nor the third coordinate of the contact
nodes is constrained (if they are at most half of the nodes). -/
theorem C77_space_wrong [IsStrictOrderedRing K] (N c : ℕ) (hN : 2 ≤ N) (hc : 0 < c) (hcN : 2 * c ≤ N) :
    ∃ x : ℕ → K, x (1 * N + 0) < 0 ∧ x (2 * N + 0) < 0 ∧ ∃ v, constr c (3 * N) x = some v ∧ 0 ≤ v := by
  refine ⟨fun i => if i = N ∨ i = 2 * N then -1 else 0, by simp, by simp, ?_⟩
  obtain ⟨v, h1, h2⟩ := constr_spec c (3 * N) (fun i => if i = N ∨ i = 2 * N then (-1 : K) else 0) hc
    (by omega) 0
  refine ⟨v, h1, h2.2 fun i hi => ?_⟩
  rw [if_neg (by omega)]

omit [Field K] in
/-- C77, violated: without contact nodes the method fails. -/
theorem C77_no_contact_wrong (n : ℕ) (x : ℕ → K) : constr 0 n x = none := by
  simp [constr]

end

/-- C77 for a body with three nodes, two of them in contact. -/
example : constr 2 (2 * 3) (fun i => [(-5 : ℚ), -4, -3, 2, 1, -1].getD i 0) = some 1 := by
  decide +kernel

end Conmech
