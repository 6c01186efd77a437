import Verif.Model.SavedResults
import Verif.Spec.SavedResults
import Verif.Props.Config
import Mathlib.Data.List.Nodup
import Mathlib.Algebra.Order.Floor.Ring
import Mathlib.Algebra.Order.Floor.Semiring
import Mathlib.Data.Rat.Floor
import Mathlib.Tactic.Linarith
import Mathlib.Tactic.FieldSimp
import Mathlib.Tactic.Ring
import Mathlib.Tactic.NormNum
import Mathlib.Tactic.IntervalCases

/-!
Property C100: results kept in files are those of the parameters they are shown for.
-/
namespace Conmech

open Saved Spec

section Names

theorem first_separator {c : Char} : ∀ {x y a b : List Char}, c ∉ x → c ∉ y →
    x ++ c :: a = y ++ c :: b → x = y ∧ a = b
  | [], [], _, _, _, _, h => ⟨rfl, by simpa using h⟩
  | [], d :: y, _, _, _, hy, h => by
    simp only [List.nil_append, List.cons_append, List.cons.injEq] at h
    exact absurd (by simp [h.1]) hy
  | d :: x, [], _, _, hx, _, h => by
    simp only [List.nil_append, List.cons_append, List.cons.injEq] at h
    exact absurd (by simp [h.1]) hx
  | d :: x, e :: y, a, b, hx, hy, h => by
    simp only [List.cons_append, List.cons.injEq] at h
    obtain ⟨h1, h2⟩ := first_separator (fun hc => hx (List.mem_cons_of_mem _ hc))
      (fun hc => hy (List.mem_cons_of_mem _ hc)) h.2
    exact ⟨by rw [h.1, h1], h2⟩

theorem last_separator {c : Char} {x y a b : List Char} (hx : c ∉ x) (hy : c ∉ y)
    (h : a ++ c :: x = b ++ c :: y) : a = b ∧ x = y := by
  have := congrArg List.reverse h
  simp only [List.reverse_append, List.reverse_cons, List.append_assoc, List.cons_append,
    List.nil_append] at this
  obtain ⟨h1, h2⟩ := first_separator (by simpa using hx) (by simpa using hy) this
  exact ⟨by simpa using h2, by simpa using h1⟩

theorem toString_nat_plain (n : ℕ) : Plain (toString n) := by
  unfold Plain
  intro h
  rw [Nat.toString_eq_repr, show (Nat.repr n).toList = Nat.toDigits 10 n by simp] at h
  exact absurd (Nat.isDigit_of_mem_toDigits (by decide) (by decide) h) (by decide)

theorem toString_nat_inj {m n : ℕ} (h : toString m = toString n) : m = n := by
  have := congrArg String.toList h
  rw [Nat.toString_eq_repr, Nat.toString_eq_repr, show (Nat.repr m).toList = Nat.toDigits 10 m by simp,
    show (Nat.repr n).toList = Nat.toDigits 10 n by simp] at this
  exact digits_inj this

theorem toString_int_plain (n : ℤ) : Plain (toString n) := by
  cases n with
  | ofNat n => exact toString_nat_plain n
  | negSucc n =>
    show Plain ("-" ++ toString (n + 1))
    unfold Plain
    rw [String.toList_append]
    intro h
    rcases List.mem_append.1 h with h | h
    · exact absurd h (by decide)
    · exact toString_nat_plain _ h

theorem toString_cast_inj {m n : ℕ} (h : toString (m : ℤ) = toString (n : ℤ)) : m = n :=
  toString_nat_inj h

theorem temperatureName_separate : Separate temperatureName fun p => Plain p.1 := by
  rintro ⟨a, h⟩ ⟨b, k⟩ ha hb he
  have := congrArg String.toList he
  unfold temperatureName at this
  simp only [String.toList_append, List.append_assoc, List.append_cancel_left_eq,
    show "_ih_".toList = ['_', 'i', 'h', '_'] by decide, List.cons_append, List.nil_append] at this
  obtain ⟨h1, h2⟩ := first_separator (c := '_') ha hb this
  simp only [List.cons.injEq, true_and] at h2
  exact Prod.ext (String.toList_injective h1) (String.toList_injective h2)

end Names

section Temperature

variable {A P : Type} {name : P → String} {sim : P → A} {S : P → Prop}

theorem write_same (fs : Files A) (n : String) (a : A) : fs.write n a n = some a := by
  simp [Files.write]

theorem write_other {fs : Files A} {n m : String} (a : A) (h : m ≠ n) : fs.write n a m = fs m := by
  simp [Files.write, h]

theorem write_ne_none {fs : Files A} {n m : String} (a : A) (h : fs m ≠ none) : fs.write n a m ≠ none := by
  unfold Files.write
  split_ifs
  · exact Option.some_ne_none _
  · exact h

theorem write_honest (hs : Separate name S) {fs : Files A} (hh : Honest name sim S fs) {p : P} (hp : S p) :
    Honest name sim S (fs.write (name p) (sim p)) := by
  intro q hq a ha
  unfold Files.write at ha
  split_ifs at ha with hn
  · rw [hs q p hq hp hn]; exact (Option.some.inj ha).symm
  · exact hh q hq a ha

theorem ensure_spec (hs : Separate name S) (force : Bool) {fs : Files A} (hh : Honest name sim S fs) {p : P}
    (hp : S p) :
    Honest name sim S (ensure force name sim fs p).files ∧
      (ensure force name sim fs p).files (name p) = some (sim p) ∧
      (∀ n, fs n ≠ none → (ensure force name sim fs p).files n ≠ none) ∧
      (∀ q ∈ (ensure force name sim fs p).simulated, q = p ∧ (force = false → fs (name p) = none)) ∧
      (force = false → fs (name p) ≠ none → (ensure force name sim fs p).simulated = [] ∧
        (ensure force name sim fs p).files = fs) ∧
      (ensure force name sim fs p).simulated.length ≤ 1 := by
  unfold ensure
  split_ifs with hc
  · refine ⟨write_honest hs hh hp, write_same _ _ _, fun n => write_ne_none _, ?_, ?_, by simp⟩
    · intro q hq
      refine ⟨by simpa using hq, fun hf => ?_⟩
      simpa [hf] using hc
    · intro hf hne
      simp [hf] at hc
      exact absurd hc hne
  · have hsome : fs (name p) ≠ none := by
      intro h0; exact hc (by simp [h0])
    obtain ⟨a, ha⟩ := Option.ne_none_iff_exists'.1 hsome
    exact ⟨hh, by simp only []; rw [ha, hh p hp a ha], fun n hn => hn, by simp, fun _ _ => ⟨rfl, rfl⟩, by simp⟩

/-- A pass of a loop that keeps the files honest, leaves the file of its parameter, and simulates only a
parameter without a file unless forced to. -/
def GoodPass (name : P → String) (sim : P → A) (S : P → Prop) (force : Bool)
    (pass : Files A → P → Outcome A P) : Prop :=
  ∀ fs p, S p → Honest name sim S fs →
    Honest name sim S (pass fs p).files ∧ (pass fs p).files (name p) = some (sim p) ∧
      (∀ n, fs n ≠ none → (pass fs p).files n ≠ none) ∧
      (∀ q ∈ (pass fs p).simulated, q = p ∧ (force = false → fs (name p) = none)) ∧
      (force = false → fs (name p) ≠ none → (pass fs p).simulated = [] ∧ (pass fs p).files = fs) ∧
      (pass fs p).simulated.length ≤ 1

theorem ensure_good (hs : Separate name S) (force : Bool) : GoodPass name sim S force (ensure force name sim) :=
  fun _ _ hp hh => ensure_spec hs force hh hp

theorem load_good (hs : Separate name S) (force : Bool) :
    GoodPass name sim S force (loadOrSimulate force name sim) :=
  fun _ _ hp hh => ensure_spec hs force hh hp

theorem passes_spec {force : Bool} {pass : Files A → P → Outcome A P}
    (hg : GoodPass name sim S force pass) :
    ∀ (ps : List P) (fs : Files A), (∀ p ∈ ps, S p) → Honest name sim S fs →
      Honest name sim S (passes pass ps fs).files ∧
        (∀ p ∈ ps, (passes pass ps fs).files (name p) = some (sim p)) ∧
        (∀ n, fs n ≠ none → (passes pass ps fs).files n ≠ none) ∧
        (∀ q ∈ (passes pass ps fs).simulated, q ∈ ps ∧ (force = false → fs (name q) = none)) ∧
        (force = false → (∀ p ∈ ps, fs (name p) ≠ none) →
          (passes pass ps fs).simulated = [] ∧ (passes pass ps fs).files = fs) ∧
        (force = false → (passes pass ps fs).simulated.Nodup)
  | [], fs, _, hh => by
    refine ⟨hh, by simp, fun n hn => hn, by simp [passes], fun _ _ => ⟨rfl, rfl⟩, fun _ => by simp [passes]⟩
  | p :: ps, fs, hS, hh => by
    have hp := hS p (by simp)
    obtain ⟨a1, a2, a3, a4, a5, a6⟩ := hg fs p hp hh
    obtain ⟨b1, b2, b3, b4, b5, b6⟩ := passes_spec hg ps (pass fs p).files
      (fun q hq => hS q (List.mem_cons_of_mem _ hq)) a1
    refine ⟨b1, ?_, fun n hn => b3 n (a3 n hn), ?_, ?_, ?_⟩
    · intro q hq
      rcases List.mem_cons.1 hq with rfl | hq
      · have hne := b3 (name q) (by rw [a2]; exact Option.some_ne_none _)
        obtain ⟨a, ha⟩ := Option.ne_none_iff_exists'.1 hne
        show (passes pass ps (pass fs q).files).files (name q) = _
        rw [ha, b1 q hp a ha]
      · exact b2 q hq
    · intro q hq
      have hq' : q ∈ (pass fs p).simulated ++ (passes pass ps (pass fs p).files).simulated := hq
      rcases List.mem_append.1 hq' with h | h
      · obtain ⟨rfl, h2⟩ := a4 q h
        exact ⟨by simp, h2⟩
      · obtain ⟨h1, h2⟩ := b4 q h
        refine ⟨List.mem_cons_of_mem _ h1, fun hf => ?_⟩
        by_contra hne
        exact a3 _ hne (h2 hf)
    · intro hf hall
      obtain ⟨c1, c2⟩ := a5 hf (hall p (by simp))
      obtain ⟨d1, d2⟩ := b5 hf (by
        intro q hq
        rw [c2]
        exact hall q (List.mem_cons_of_mem _ hq))
      refine ⟨?_, ?_⟩
      · show (pass fs p).simulated ++ (passes pass ps (pass fs p).files).simulated = []
        rw [c1, d1]; rfl
      · show (passes pass ps (pass fs p).files).files = fs
        rw [d2, c2]
    · intro hf
      show ((pass fs p).simulated ++ (passes pass ps (pass fs p).files).simulated).Nodup
      refine List.Nodup.append ?_ (b6 hf) ?_
      · match h : (pass fs p).simulated with
        | [] => simp
        | [_] => simp
        | _ :: _ :: _ => rw [h] at a6; simp at a6
      · intro q h1 h2
        obtain ⟨rfl, -⟩ := a4 q h1
        have := (b4 q h2).2 hf
        rw [a2] at this
        exact Option.some_ne_none _ this

theorem passes_shown (hs : Separate name S) (force : Bool) :
    ∀ (ps : List P) (fs : Files A), (∀ p ∈ ps, S p) → Honest name sim S fs →
      Truthful sim ps (passes (loadOrSimulate force name sim) ps fs).shown
  | [], fs, _, _ => rfl
  | p :: ps, fs, hS, hh => by
    have hp := hS p (by simp)
    obtain ⟨a1, a2, -⟩ := load_good (sim := sim) hs force fs p hp hh
    have := passes_shown hs force ps (loadOrSimulate force name sim fs p).files
      (fun q hq => hS q (List.mem_cons_of_mem _ hq)) a1
    unfold Truthful at this ⊢
    show (loadOrSimulate force name sim fs p).shown ++ _ = _
    rw [this]
    show [(p, (loadOrSimulate force name sim fs p).files (name p))] ++ _ = _
    rw [a2]
    rfl

/-- The files after some runs of the example, each with its `force`, its pairs and the pairs drawn. -/
def temperatureHistory (sim : String × String → A)
    (runs : List (Bool × List (String × String) × List (String × String))) : Files A :=
  runs.foldl (fun fs r => (temperatureMain r.1 sim r.2.1 r.2.2 fs).files) Files.empty

theorem temperatureMain_honest {sim : String × String → A} (force : Bool)
    {ps drawn : List (String × String)} {fs : Files A}
    (hp : ∀ p ∈ ps ++ drawn, Plain p.1) (hh : Honest temperatureName sim (fun p => Plain p.1) fs) :
    Honest temperatureName sim (fun p => Plain p.1) (temperatureMain force sim ps drawn fs).files := by
  obtain ⟨h1, -⟩ := passes_spec (ensure_good (sim := sim) temperatureName_separate force) ps fs
    (fun p h => hp p (List.mem_append_left _ h)) hh
  exact (passes_spec (load_good temperatureName_separate force) drawn _
    (fun p h => hp p (List.mem_append_right _ h)) h1).1

theorem temperatureHistory_honest {sim : String × String → A}
    {runs : List (Bool × List (String × String) × List (String × String))}
    (hp : ∀ r ∈ runs, ∀ p ∈ r.2.1 ++ r.2.2, Plain p.1) :
    Honest temperatureName sim (fun p => Plain p.1) (temperatureHistory sim runs) := by
  unfold temperatureHistory
  suffices h : ∀ (fs : Files A), Honest temperatureName sim (fun p => Plain p.1) fs →
      Honest temperatureName sim (fun p => Plain p.1)
        (runs.foldl (fun fs r => (temperatureMain r.1 sim r.2.1 r.2.2 fs).files) fs) by
    exact h _ (fun p _ a ha => by simp [Files.empty] at ha)
  induction runs with
  | nil => exact fun fs h => h
  | cons r runs ih =>
    intro fs h
    exact ih (fun r' hr => hp r' (List.mem_cons_of_mem _ hr)) _
      (temperatureMain_honest r.1 (hp r (by simp)) h)

/-- C100 for the temperature example: after any runs, each drawing shows the result of its own parameters;
without `force` nothing is simulated twice or when there is a file; and a repeated run without `force`
simulates nothing and shows the same. -/
theorem C100_temperature (sim : String × String → A)
    (runs : List (Bool × List (String × String) × List (String × String)))
    (hruns : ∀ r ∈ runs, ∀ p ∈ r.2.1 ++ r.2.2, Plain p.1)
    (force : Bool) (ps drawn : List (String × String)) (hp : ∀ p ∈ ps ++ drawn, Plain p.1) :
    let fs := temperatureHistory sim runs
    let o := temperatureMain force sim ps drawn fs
    Truthful sim drawn o.shown ∧
      (∀ p ∈ ps ++ drawn, o.files (temperatureName p) = some (sim p)) ∧
      (∀ p ∈ o.simulated, p ∈ ps ++ drawn) ∧
      (force = false → o.simulated.Nodup ∧ ∀ p ∈ o.simulated, fs (temperatureName p) = none) ∧
      (temperatureMain false sim ps drawn o.files).simulated = [] ∧
      (temperatureMain false sim ps drawn o.files).shown = o.shown := by
  intro fs o
  have hh : Honest temperatureName sim (fun p => Plain p.1) fs := temperatureHistory_honest hruns
  have hs := temperatureName_separate
  have hp1 : ∀ p ∈ ps, Plain p.1 := fun p h => hp p (List.mem_append_left _ h)
  have hp2 : ∀ p ∈ drawn, Plain p.1 := fun p h => hp p (List.mem_append_right _ h)
  obtain ⟨a1, a2, a3, a4, a5, a6⟩ := passes_spec (ensure_good (sim := sim) hs force) ps fs hp1 hh
  obtain ⟨b1, b2, b3, b4, b5, b6⟩ := passes_spec (load_good (sim := sim) hs force) drawn _ hp2 a1
  have hshown : Truthful sim drawn o.shown := passes_shown hs force drawn _ hp2 a1
  have hfile : ∀ p ∈ ps ++ drawn, o.files (temperatureName p) = some (sim p) := by
    intro p h
    rcases List.mem_append.1 h with h | h
    · have hne := b3 (temperatureName p) (by rw [a2 p h]; exact Option.some_ne_none _)
      obtain ⟨a, ha⟩ := Option.ne_none_iff_exists'.1 hne
      show (passes (loadOrSimulate force temperatureName sim) drawn _).files _ = _
      rw [ha, b1 p (hp1 p h) a ha]
    · exact b2 p h
  have ho : Honest temperatureName sim (fun p => Plain p.1) o.files := b1
  obtain ⟨c1, c2⟩ := (passes_spec (ensure_good (sim := sim) hs false) ps o.files hp1 ho).2.2.2.2.1 rfl
    (fun p h => by rw [hfile p (List.mem_append_left _ h)]; exact Option.some_ne_none _)
  obtain ⟨d1, d2⟩ := (passes_spec (load_good (sim := sim) hs false) drawn o.files hp2 ho).2.2.2.2.1 rfl
    (fun p h => by rw [hfile p (List.mem_append_right _ h)]; exact Option.some_ne_none _)
  refine ⟨hshown, hfile, ?_, ?_, ?_, ?_⟩
  · intro p h
    have h' : p ∈ (passes (ensure force temperatureName sim) ps fs).simulated ++ _ := h
    rcases List.mem_append.1 h' with h | h
    · exact List.mem_append_left _ (a4 p h).1
    · exact List.mem_append_right _ (b4 p h).1
  · intro hf
    refine ⟨?_, ?_⟩
    · show ((passes (ensure force temperatureName sim) ps fs).simulated ++ _).Nodup
      refine List.Nodup.append (a6 hf) (b6 hf) ?_
      intro q h1 h2
      have := (b4 q h2).2 hf
      rw [a2 q (a4 q h1).1] at this
      exact Option.some_ne_none _ this
    · intro p h
      have h' : p ∈ (passes (ensure force temperatureName sim) ps fs).simulated ++ _ := h
      rcases List.mem_append.1 h' with h | h
      · exact (a4 p h).2 hf
      · by_contra hne
        exact a3 _ hne ((b4 p h).2 hf)
  · show (passes (ensure false temperatureName sim) ps o.files).simulated ++
      (passes (loadOrSimulate false temperatureName sim) drawn
        (passes (ensure false temperatureName sim) ps o.files).files).simulated = []
    rw [c1, c2, d1]
    rfl
  · show (passes (loadOrSimulate false temperatureName sim) drawn
        (passes (ensure false temperatureName sim) ps o.files).files).shown = _
    rw [c2]
    have := passes_shown (sim := sim) hs false drawn o.files hp2 ho
    unfold Truthful at this hshown
    rw [this, hshown]

example : ∃ runs : List (Bool × List (String × String) × List (String × String)),
    (∀ r ∈ runs, ∀ p ∈ r.2.1 ++ r.2.2, Plain p.1) ∧
    temperatureHistory (fun p => p.1.length + p.2.length) runs "alpha_0.01_ih_16" = some 6 ∧
    (temperatureMain false (fun p => p.1.length + p.2.length) [("inf", "4"), ("0.01", "16")] [("inf", "4")]
      (temperatureHistory (fun p => p.1.length + p.2.length) runs)).simulated = [("inf", "4")] :=
  ⟨[(false, [("0.01", "16")], [("0.01", "16")]), (true, [("1", "4")], [])], by
    unfold Plain; decide +kernel, by decide +kernel, by decide +kernel⟩

end Temperature

section Scientific

theorem roundHalfEven_exact (k d : ℕ) (hd : 0 < d) : roundHalfEven (k * d) d = k := by
  unfold roundHalfEven
  simp [hd]

theorem roundHalfEven_above {k d r : ℕ} (hr : 2 * r < d) : roundHalfEven (k * d + r) d = k := by
  have hd : r < d := by omega
  unfold roundHalfEven
  have h1 : (k * d + r) % d = r := by
    rw [Nat.mul_comm, Nat.mul_add_mod, Nat.mod_eq_of_lt hd]
  have h2 : (k * d + r) / d = k := by
    rw [Nat.mul_comm, Nat.mul_add_div (by omega), Nat.div_eq_of_lt hd, Nat.add_zero]
  rw [h1, h2, if_pos hr]

theorem log_three {k e r : ℕ} (h1 : 100 ≤ k) (h2 : k < 1000) (hr : r < 10 ^ e) :
    Nat.log 10 (k * 10 ^ e + r) = e + 2 := by
  rw [Nat.log_eq_iff (by left; omega)]
  have hpos : 0 < 10 ^ e := by positivity
  constructor
  · calc 10 ^ (e + 2) = 100 * 10 ^ e := by ring
      _ ≤ k * 10 ^ e := Nat.mul_le_mul_right _ h1
      _ ≤ k * 10 ^ e + r := Nat.le_add_right _ _
  · calc k * 10 ^ e + r < k * 10 ^ e + 10 ^ e := by omega
      _ = (k + 1) * 10 ^ e := by ring
      _ ≤ 1000 * 10 ^ e := Nat.mul_le_mul_right _ h2
      _ = 10 ^ (e + 2 + 1) := by ring

/-- Digits and exponent of a number that is at most half a unit of the third digit above three digits. -/
theorem scientific_three {k e r : ℕ} (h1 : 100 ≤ k) (h2 : k < 1000) (hr : 2 * r < 10 ^ e) :
    scientific (k * 10 ^ e + r) = (k, e + 2) := by
  have hpos : 0 < 10 ^ e := by positivity
  have hne : k * 10 ^ e + r ≠ 0 := by
    have : 0 < k * 10 ^ e := Nat.mul_pos (by omega) hpos
    omega
  unfold scientific
  rw [if_neg hne, log_three h1 h2 (by omega)]
  have : (k * 10 ^ e + r) * 100 = k * 10 ^ (e + 2) + 100 * r := by ring
  simp only [this]
  rw [roundHalfEven_above (by calc 2 * (100 * r) = 100 * (2 * r) := by ring
      _ < 100 * 10 ^ e := by omega
      _ = 10 ^ (e + 2) := by ring)]
  rw [if_neg (by omega)]

theorem sci_inj {m n : ℕ} (h : scientific m = scientific n) : sci m = sci n := by
  unfold sci
  rw [h]

theorem digit_text {d : ℕ} (h : d < 10) : (toString d).toList = [Nat.digitChar d] := by
  revert h; revert d; decide

theorem digitChar_inj {c d : ℕ} (hc : c < 10) (hd : d < 10) (h : Nat.digitChar c = Nat.digitChar d) : c = d := by
  have : ∀ c < 10, ∀ d < 10, Nat.digitChar c = Nat.digitChar d → c = d := by decide
  exact this c hc d hd h

/-- The text of an exponent determines the exponent. -/
theorem exponent_inj {e f : ℕ}
    (h : ((if e < 10 then "0" else "") ++ toString e).toList = ((if f < 10 then "0" else "") ++ toString f).toList) :
    e = f := by
  have key : ∀ n : ℕ, Nat.ofDigitChars 10 ((if n < 10 then "0" else "") ++ toString n).toList 0 = n := by
    intro n
    rw [String.toList_append, Nat.toString_eq_repr, show (Nat.repr n).toList = Nat.toDigits 10 n by simp]
    split_ifs
    · rw [show "0".toList = ['0'] by decide]
      rw [List.singleton_append, Nat.ofDigitChars_cons]
      exact Nat.ofDigitChars_ten_toDigits
    · rw [show "".toList = [] by decide, List.nil_append]
      exact Nat.ofDigitChars_ten_toDigits
  rw [← key e, h, key f]

/-- Names of forces with three digits. -/
theorem sci_separate {k e l f : ℕ} (hk : 100 ≤ k) (hk' : k < 1000) (hl : 100 ≤ l) (hl' : l < 1000)
    (h : sci (k * 10 ^ e) = sci (l * 10 ^ f)) : k = l ∧ e = f := by
  have h1 := scientific_three (e := e) (r := 0) hk hk' (by positivity)
  have h2 := scientific_three (e := f) (r := 0) hl hl' (by positivity)
  rw [Nat.add_zero] at h1 h2
  unfold sci at h
  rw [h1, h2] at h
  have := congrArg String.toList h
  simp only [String.toList_append, digit_text (show k / 100 < 10 by omega),
    digit_text (show k / 10 % 10 < 10 by omega), digit_text (show k % 10 < 10 by omega),
    digit_text (show l / 100 < 10 by omega), digit_text (show l / 10 % 10 < 10 by omega),
    digit_text (show l % 10 < 10 by omega), List.append_assoc, List.cons_append, List.nil_append,
    List.cons.injEq, List.append_cancel_left_eq] at this
  obtain ⟨a1, a2, a3, a4⟩ := this
  have b1 := digitChar_inj (by omega) (by omega) a1
  have b2 := digitChar_inj (by omega) (by omega) a2
  have b3 := digitChar_inj (by omega) (by omega) a3
  refine ⟨by omega, ?_⟩
  have := exponent_inj (e := e + 2) (f := f + 2) (by rw [String.toList_append, String.toList_append]; exact a4)
  omega

theorem sci_plain (n : ℕ) : Plain (sci n) := by
  unfold Plain sci
  simp only [String.toList_append, List.mem_append, not_or]
  refine ⟨⟨⟨⟨⟨⟨toString_nat_plain _, by decide⟩, toString_nat_plain _⟩, toString_nat_plain _⟩, by decide⟩, ?_⟩,
    toString_nat_plain _⟩
  split_ifs <;> decide

/-- Methods without underscores and forces with three digits and at least 100 N have names of their own. -/
def ThreeDigits (p : String × ℕ) : Prop :=
  Plain p.1 ∧ ∃ k e, 100 ≤ k ∧ k < 1000 ∧ p.2 = k * 10 ^ e

theorem forceName_separate (family : String) : Separate (forceName family) ThreeDigits := by
  rintro ⟨m, f⟩ ⟨m', f'⟩ ⟨hm, k, e, h1, h2, h3⟩ ⟨hm', l, e', h4, h5, h6⟩ he
  simp only at h3 h6
  have := congrArg String.toList he
  unfold forceName at this
  simp only [String.toList_append, List.append_assoc, List.append_cancel_left_eq,
    show "_frc_".toList = ['_', 'f', 'r', 'c', '_'] by decide, List.cons_append, List.nil_append] at this
  obtain ⟨a1, a2⟩ := first_separator (c := '_') hm hm' this
  simp only [List.cons.injEq, true_and] at a2
  have a3 := String.toList_injective a2
  rw [h3, h6] at a3
  obtain ⟨rfl, rfl⟩ := sci_separate h1 h2 h4 h5 a3
  exact Prod.ext (String.toList_injective a1) (h3.trans h6.symm)

/-- C100, names of forces: methods without underscores and forces of three digits have names of their own. -/
theorem C100_force_names_partial (family : String) : Separate (forceName family) ThreeDigits :=
  forceName_separate family

example : ThreeDigits ("qsm", 22500000) ∧ ThreeDigits ("BFGS", 20000000) ∧
    forceName "BBO" ("qsm", 22500000) = "BBO_mtd_qsm_frc_2.25e+07" :=
  ⟨⟨by unfold Plain; decide, 225, 5, by norm_num, by norm_num, by norm_num⟩,
    ⟨by unfold Plain; decide, 200, 5, by norm_num, by norm_num, by norm_num⟩, by decide +kernel⟩

/-- Forces that agree in three digits share a name: from 1000 N on, every force of three digits shares its name
with forces up to half a unit of the third digit above. -/
theorem C100_force_names_wrong (family method : String) {k e r : ℕ} (h1 : 100 ≤ k) (h2 : k < 1000)
    (hr : 2 * r < 10 ^ e) :
    forceName family (method, k * 10 ^ e + r) = forceName family (method, k * 10 ^ e) := by
  unfold forceName
  rw [sci_inj (m := k * 10 ^ e + r) (n := k * 10 ^ e)]
  have := scientific_three (e := e) (r := 0) h1 h2 (by positivity)
  rw [Nat.add_zero] at this
  rw [scientific_three h1 h2 hr, this]

example : forceName "BBO" ("qsm", 256 * 10 ^ 2 + 49) = forceName "BBO" ("qsm", 256 * 10 ^ 2) :=
  C100_force_names_wrong _ _ (by norm_num) (by norm_num) (by norm_num)

end Scientific

section Sweep

variable {A D L M F : Type} [DecidableEq M] [DecidableEq F]

/-- What a simulation may start from: nothing, or, for a warm method, the displacement of a state simulated with
the same method. -/
def GoodStart (warm : M → Bool) (sim : M × F → Option D → A) (disp : A → D) (p : M × F) (w : Option D) : Prop :=
  w = none ∨ warm p.1 = true ∧ ∃ f w', w = some (disp (sim (p.1, f) w'))

/-- Results of the parameters, from such starts. -/
def GoodResult (warm : M → Bool) (sim : M × F → Option D → A) (disp : A → D) (p : M × F) (a : A) : Prop :=
  ∃ w, a = sim p w ∧ GoodStart warm sim disp p w

variable {warm : M → Bool} {sim : M × F → Option D → A} {disp : A → D} {loss : A → L}
  {name : M × F → String} {S : M × F → Prop}

/-- The variables of the loop after the pairs of `done`. -/
structure SweepInv (warm : M → Bool) (sim : M × F → Option D → A) (disp : A → D) (loss : A → L)
    (name : M × F → String) (S : M × F → Prop) (fs : Files A) (done : List (M × F))
    (s : Sweep A D L M F) : Prop where
  files : ∀ p, S p → ∀ a, s.files (name p) = some a → GoodResult warm sim disp p a
  kept : ∀ n, (∀ p ∈ done, n ≠ name p) → s.files n = fs n
  made : ∀ p ∈ done, ∃ a, s.files (name p) = some a ∧ s.losses p.1 p.2 = some (loss a)
  rest : ∀ m f, (m, f) ∉ done → s.losses m f = none
  start : ∀ m, s.method = some m → ∀ d, s.start = some d → ∃ f w', d = disp (sim (m, f) w')

theorem sweep_pass (hs : Separate name S) {fs : Files A} {done : List (M × F)} {s : Sweep A D L M F}
    (hd : ∀ p ∈ done, S p)
    (hi : SweepInv warm sim disp loss name S fs done s) {p : M × F} (hp : S p) :
    SweepInv warm sim disp loss name S fs (done ++ [p]) (s.pass warm sim disp loss name p) := by
  obtain ⟨h1, h2, h3, h4, h5⟩ := hi
  set w : Option D := if !warm p.1 || s.method ≠ some p.1 then none else s.start with hw
  have hgood : GoodStart warm sim disp p w := by
    rw [hw]
    split_ifs with hc
    · exact Or.inl rfl
    · simp only [Bool.or_eq_true, Bool.not_eq_eq_eq_not, Bool.not_true, ne_eq, decide_not,
        decide_eq_false_iff_not, not_or, Bool.not_eq_false, Decidable.not_not] at hc
      cases hst : s.start with
      | none => exact Or.inl rfl
      | some d =>
        obtain ⟨f, w', rfl⟩ := h5 p.1 hc.2 d hst
        exact Or.inr ⟨hc.1, f, w', rfl⟩
  have hf : (s.pass warm sim disp loss name p).files = s.files.write (name p) (sim p w) := rfl
  have hl : (s.pass warm sim disp loss name p).losses =
      fun m f => if m = p.1 ∧ f = p.2 then some (loss (sim p w)) else s.losses m f := rfl
  have hm : (s.pass warm sim disp loss name p).method = some p.1 := by
    show (if !warm p.1 || s.method ≠ some p.1 then some p.1 else s.method) = some p.1
    split_ifs with hc
    · rfl
    · simp only [Bool.or_eq_true, Bool.not_eq_eq_eq_not, Bool.not_true, ne_eq, decide_not,
        decide_eq_false_iff_not, not_or, Bool.not_eq_false, Decidable.not_not] at hc
      exact hc.2
  refine ⟨?_, ?_, ?_, ?_, ?_⟩
  · intro q hq a ha
    rw [hf] at ha
    unfold Files.write at ha
    split_ifs at ha with hn
    · rw [hs q p hq hp hn]
      exact ⟨w, (Option.some.inj ha).symm, hgood⟩
    · exact h1 q hq a ha
  · intro n hn
    rw [hf, write_other _ (hn p (by simp))]
    exact h2 n fun q hq => hn q (List.mem_append_left _ hq)
  · intro q hq
    rw [hf, hl]
    by_cases hqp : q = p
    · subst hqp
      exact ⟨_, write_same _ _ _, by simp⟩
    · have hq' : q ∈ done := by
        rcases List.mem_append.1 hq with h | h
        · exact h
        · exact absurd (by simpa using h) hqp
      obtain ⟨a, ha, hla⟩ := h3 q hq'
      refine ⟨a, ?_, ?_⟩
      · rw [write_other _ (fun he => hqp (hs q p (hd q hq') hp he))]
        exact ha
      · have : ¬ (q.1 = p.1 ∧ q.2 = p.2) := fun h => hqp (Prod.ext h.1 h.2)
        simp only [if_neg this]
        exact hla
  · intro m f hmf
    rw [hl]
    have h6 : (m, f) ∉ done := fun h => hmf (List.mem_append_left _ h)
    have h7 : ¬ (m = p.1 ∧ f = p.2) := fun h => hmf (List.mem_append_right _ (by
      obtain ⟨rfl, rfl⟩ := h; simp))
    simp only [if_neg h7]
    exact h4 m f h6
  · intro m hm' d hd'
    rw [hm] at hm'
    obtain rfl := Option.some.inj hm'
    exact ⟨p.2, w, (Option.some.inj hd').symm⟩

theorem sweep_fold (hs : Separate name S) {fs : Files A} :
    ∀ (todo done : List (M × F)) (s : Sweep A D L M F), (∀ p ∈ done, S p) → (∀ p ∈ todo, S p) →
      SweepInv warm sim disp loss name S fs done s →
      SweepInv warm sim disp loss name S fs (done ++ todo)
        (todo.foldl (Sweep.pass warm sim disp loss name) s)
  | [], done, s, _, _, hi => by simpa using hi
  | p :: todo, done, s, hd, ht, hi => by
    have := sweep_fold hs todo (done ++ [p]) (s.pass warm sim disp loss name p)
      (by
        intro q hq
        rcases List.mem_append.1 hq with h | h
        · exact hd q h
        · rw [List.mem_singleton.1 h]; exact ht p (by simp))
      (fun q hq => ht q (List.mem_cons_of_mem _ hq)) (sweep_pass hs hd hi (ht p (by simp)))
    simpa using this

theorem mem_missing {P : Type} {force : Bool} {nm : P → String} {ps : List P} {fs : Files A} {p : P} :
    p ∈ missing force nm ps fs ↔ p ∈ ps ∧ (force = true ∨ fs (nm p) = none) := by
  unfold missing
  split_ifs with h
  · simp [h]
  · simp [h, Option.isNone_iff_eq_none]

/-- Files in which only results of their parameters are kept. -/
def SweepHonest (warm : M → Bool) (sim : M × F → Option D → A) (disp : A → D) (name : M × F → String)
    (S : M × F → Prop) (fs : Files A) : Prop :=
  ∀ p, S p → ∀ a, fs (name p) = some a → GoodResult warm sim disp p a

theorem sweepMain_spec (hs : Separate name S) (force : Bool) {methods : List M} {forces : List F}
    (hp : ∀ p ∈ pairs methods forces, S p) {d : Directory A L M F}
    (hd : SweepHonest warm sim disp name S d.files) :
    let o := sweepMain force warm sim disp loss name methods forces d
    SweepHonest warm sim disp name S o.1.files ∧
      (∀ p ∈ pairs methods forces, ∃ a, o.1.files (name p) = some a ∧ GoodResult warm sim disp p a) ∧
      o.2.1 = missing force name (pairs methods forces) d.files ∧
      o.2.2 = (pairs methods forces).map (fun p => (p, o.1.files (name p))) ∧
      (o.2.1 = [] → o.1 = d) ∧
      (o.2.1 ≠ [] → ∃ losses, o.1.losses = some losses ∧
        (∀ p ∈ o.2.1, ∃ a, o.1.files (name p) = some a ∧ losses p.1 p.2 = some (loss a)) ∧
        ∀ m f, (m, f) ∉ o.2.1 → losses m f = none) ∧
      (∀ n, d.files n ≠ none → o.1.files n ≠ none) := by
  intro o
  set todo := missing force name (pairs methods forces) d.files with htodo
  have ho1 : o.2.1 = todo := rfl
  have hodef : o.1 = if todo = [] then d else
      ⟨(todo.foldl (Sweep.pass warm sim disp loss name) ⟨d.files, fun _ _ => none, none, none⟩).files,
        some (todo.foldl (Sweep.pass warm sim disp loss name) ⟨d.files, fun _ _ => none, none, none⟩).losses⟩ := rfl
  by_cases h0 : todo = []
  · rw [if_pos h0] at hodef
    refine ⟨by rw [hodef]; exact hd, ?_, ho1, rfl, fun _ => hodef, fun h => absurd h0 h, by
      rw [hodef]; exact fun n h => h⟩
    intro p hpp
    have hne : d.files (name p) ≠ none := by
      intro hnone
      have : p ∈ todo := mem_missing.2 ⟨hpp, Or.inr hnone⟩
      rw [h0] at this
      simp at this
    obtain ⟨a, ha⟩ := Option.ne_none_iff_exists'.1 hne
    exact ⟨a, by rw [hodef]; exact ha, hd p (hp p hpp) a ha⟩
  · rw [if_neg h0] at hodef
    have hinv := sweep_fold (warm := warm) (sim := sim) (disp := disp) (loss := loss) hs (fs := d.files) todo []
      ⟨d.files, fun _ _ => none, none, none⟩ (by simp)
      (fun p h => hp p (mem_missing.1 h).1)
      ⟨hd, fun n _ => rfl, by simp, fun _ _ _ => rfl, by simp⟩
    rw [List.nil_append] at hinv
    obtain ⟨h1, h2, h3, h4, -⟩ := hinv
    have hfiles : o.1.files =
        (todo.foldl (Sweep.pass warm sim disp loss name) ⟨d.files, fun _ _ => none, none, none⟩).files := by
      rw [hodef]
    refine ⟨by rw [hfiles]; exact h1, ?_, ho1, rfl, fun h => absurd h h0, ?_, ?_⟩
    · intro p hpp
      rw [hfiles]
      by_cases hpt : p ∈ todo
      · obtain ⟨a, ha, -⟩ := h3 p hpt
        exact ⟨a, ha, h1 p (hp p hpp) a ha⟩
      · have hne : d.files (name p) ≠ none := fun hnone => hpt (mem_missing.2 ⟨hpp, Or.inr hnone⟩)
        obtain ⟨a, ha⟩ := Option.ne_none_iff_exists'.1 hne
        refine ⟨a, ?_, hd p (hp p hpp) a ha⟩
        rw [h2 (name p) (fun q hq he => hpt (by
          rw [hs p q (hp p hpp) (hp q (mem_missing.1 hq).1) he]; exact hq))]
        exact ha
    · intro _
      refine ⟨_, by rw [hodef], ?_, ?_⟩
      · intro p hpt
        obtain ⟨a, ha, hla⟩ := h3 p hpt
        exact ⟨a, by rw [hfiles]; exact ha, hla⟩
      · exact fun m f h => h4 m f h
    · intro n hn
      rw [hfiles]
      by_cases hex : ∃ p ∈ todo, n = name p
      · obtain ⟨p, hpt, rfl⟩ := hex
        obtain ⟨a, ha, -⟩ := h3 p hpt
        rw [ha]; exact Option.some_ne_none _
      · push Not at hex
        rw [h2 n hex]; exact hn

/-- The directory after some runs, each with its `force`, methods and forces. -/
def sweepHistory (warm : M → Bool) (sim : M × F → Option D → A) (disp : A → D) (loss : A → L)
    (name : M × F → String) (runs : List (Bool × List M × List F)) : Directory A L M F :=
  runs.foldl (fun d r => (sweepMain r.1 warm sim disp loss name r.2.1 r.2.2 d).1) ⟨Files.empty, none⟩

theorem sweepHistory_honest (hs : Separate name S) {runs : List (Bool × List M × List F)}
    (hr : ∀ r ∈ runs, ∀ p ∈ pairs r.2.1 r.2.2, S p) :
    SweepHonest warm sim disp name S (sweepHistory warm sim disp loss name runs).files := by
  unfold sweepHistory
  suffices h : ∀ d : Directory A L M F, SweepHonest warm sim disp name S d.files →
      SweepHonest warm sim disp name S
        (runs.foldl (fun d r => (sweepMain r.1 warm sim disp loss name r.2.1 r.2.2 d).1) d).files by
    exact h _ (fun p _ a ha => by simp [Files.empty] at ha)
  induction runs with
  | nil => exact fun d h => h
  | cons r runs ih =>
    intro d h
    exact ih (fun r' h' => hr r' (List.mem_cons_of_mem _ h')) _
      (sweepMain_spec (loss := loss) hs r.1 (hr r (by simp)) h).1

/-- C100 for the sweeps over methods and forces, for parameters whose names differ: after any runs, each drawing
shows a result of its own method and force, simulated from no initial displacement or, for a warm method, from
one of the same method; exactly the pairs without files are simulated; a repeated run without `force`
simulates nothing and changes nothing. Missing for the full claim: forces that agree in three digits, see
`C100_sweep_wrong`, and methods for which the result depends on the start, see `C100_start_wrong`. -/
theorem C100_sweep_partial (hs : Separate name S) (runs : List (Bool × List M × List F))
    (hr : ∀ r ∈ runs, ∀ p ∈ pairs r.2.1 r.2.2, S p) (force : Bool) (methods : List M) (forces : List F)
    (hp : ∀ p ∈ pairs methods forces, S p) :
    let d := sweepHistory warm sim disp loss name runs
    let o := sweepMain force warm sim disp loss name methods forces d
    (o.2.2.map Prod.fst = pairs methods forces ∧
      ∀ e ∈ o.2.2, ∃ w, e.2 = some (sim e.1 w) ∧ GoodStart warm sim disp e.1 w) ∧
      (∀ p, p ∈ o.2.1 ↔ p ∈ pairs methods forces ∧ (force = true ∨ d.files (name p) = none)) ∧
      (sweepMain false warm sim disp loss name methods forces o.1).2.1 = [] ∧
      (sweepMain false warm sim disp loss name methods forces o.1).1 = o.1 := by
  intro d o
  have hd : SweepHonest warm sim disp name S d.files := sweepHistory_honest hs hr
  obtain ⟨h1, h2, h3, h4, h5, h6, h7⟩ := sweepMain_spec (loss := loss) hs force hp hd
  have hnil : missing false name (pairs methods forces) o.1.files = [] := by
    rw [List.eq_nil_iff_forall_not_mem]
    intro p hpm
    obtain ⟨ha, hb⟩ := mem_missing.1 hpm
    obtain ⟨a, hfa, -⟩ := h2 p ha
    rcases hb with hb | hb
    · exact absurd hb (by simp)
    · have : o.1.files (name p) = some a := hfa
      rw [this] at hb
      exact Option.some_ne_none _ hb
  refine ⟨⟨?_, ?_⟩, ?_, hnil, ?_⟩
  · rw [h4, List.map_map]
    exact List.map_id' _
  · intro e he
    rw [h4] at he
    obtain ⟨p, hpp, rfl⟩ := List.mem_map.1 he
    obtain ⟨a, ha, w, rfl, hw⟩ := h2 p hpp
    exact ⟨w, ha, hw⟩
  · intro p
    rw [h3]
    exact mem_missing
  · exact (sweepMain_spec (loss := loss) hs false hp h1).2.2.2.2.1 hnil

/-- If no method is warm, or if results do not depend on the start, results are those of the parameters. -/
theorem C100_sweep_truthful_partial (hs : Separate name S) (runs : List (Bool × List M × List F))
    (hr : ∀ r ∈ runs, ∀ p ∈ pairs r.2.1 r.2.2, S p) (force : Bool) (methods : List M) (forces : List F)
    (hp : ∀ p ∈ pairs methods forces, S p)
    (hstart : ∀ p : M × F, warm p.1 = true → ∀ w, sim p w = sim p none) :
    Truthful (fun p => sim p none) (pairs methods forces)
      (sweepMain force warm sim disp loss name methods forces
        (sweepHistory warm sim disp loss name runs)).2.2 := by
  have hd : SweepHonest warm sim disp name S (sweepHistory warm sim disp loss name runs).files :=
    sweepHistory_honest hs hr
  obtain ⟨-, h2, -, h4, -⟩ := sweepMain_spec (loss := loss) hs force hp hd
  unfold Truthful
  rw [h4]
  refine List.map_congr_left fun p hpp => ?_
  obtain ⟨a, ha, w, rfl, hw⟩ := h2 p hpp
  rw [ha]
  rcases hw with rfl | ⟨hw, -⟩
  · rfl
  · rw [hstart p hw w]

example : ∃ runs : List (Bool × List String × List ℕ),
    (∀ r ∈ runs, ∀ p ∈ pairs r.2.1 r.2.2, ThreeDigits p) ∧
    Separate (forceName "BBO") ThreeDigits ∧
    (sweepMain false (fun m => m = "qsm") (fun p w => (p, w.getD 0)) (fun a => a.1.2) id (forceName "BBO")
      ["qsm"] [20000000, 22500000] (sweepHistory (D := ℕ) (fun m => m = "qsm") (fun p w => (p, w.getD 0))
        (fun a => a.1.2) id (forceName "BBO") runs)).2.2 =
      [(("qsm", 20000000), some (("qsm", 20000000), 0)), (("qsm", 22500000), some (("qsm", 22500000), 0))] := by
  refine ⟨[(false, ["qsm"], [20000000])], ?_, forceName_separate _, by decide +kernel⟩
  intro r hr p hp
  simp only [List.mem_singleton] at hr
  subst hr
  simp only [pairs, List.flatMap_cons, List.flatMap_nil, List.map_cons, List.map_nil, List.append_nil,
    List.mem_singleton] at hp
  subst hp
  exact ⟨by unfold Plain; decide, 200, 5, by norm_num, by norm_num, by norm_num⟩

/-- Two forces with one name: after a forced run both are shown with the result of the second. -/
theorem C100_sweep_wrong (sim : M × F → Option D → A) (disp : A → D) (loss : A → L) (name : M × F → String)
    (d : Directory A L M F) (m : M) (f g : F) (h : name (m, f) = name (m, g)) :
    (sweepMain true (fun _ => false) sim disp loss name [m] [f, g] d).2.2 =
      [((m, f), some (sim (m, g) none)), ((m, g), some (sim (m, g) none))] := by
  simp [sweepMain, missing, pairs, Sweep.pass, Files.write, h]

/-- In particular 25649 N is shown with the result of 25600 N. -/
example (sim : String × ℕ → Option D → A) (disp : A → D) (loss : A → L) (d : Directory A L String ℕ) :
    (sweepMain true (fun _ => false) sim disp loss (forceName "BBO") ["BFGS"] [25649, 25600] d).2.2.head? =
      some (("BFGS", 25649), some (sim ("BFGS", 25600) none)) := by
  rw [C100_sweep_wrong]
  · rfl
  · exact C100_force_names_wrong "BBO" "BFGS" (k := 256) (e := 2) (r := 49) (by norm_num) (by norm_num)
      (by norm_num)

/-- The start of a warm method depends on the files: in one run over both forces the second simulation starts
from the first result, after a run over the first force alone it starts from nothing. -/
theorem C100_start_wrong (warm : M → Bool) (sim : M × F → Option D → A) (disp : A → D) (loss : A → L)
    (name : M × F → String) (m : M) (hm : warm m = true) (f g : F) (h : name (m, f) ≠ name (m, g)) :
    let e : Directory A L M F := ⟨Files.empty, none⟩
    (sweepMain false warm sim disp loss name [m] [f, g] e).2.2 =
      [((m, f), some (sim (m, f) none)), ((m, g), some (sim (m, g) (some (disp (sim (m, f) none)))))] ∧
    (sweepMain false warm sim disp loss name [m] [f, g]
        (sweepMain false warm sim disp loss name [m] [f] e).1).2.2 =
      [((m, f), some (sim (m, f) none)), ((m, g), some (sim (m, g) none))] := by
  constructor <;>
  simp [sweepMain, missing, pairs, Sweep.pass, Files.write, Files.empty, h, h.symm, hm]

/-- C100, losses: when all pairs are simulated, the file of losses has the losses of exactly the states shown.
Missing for the full claim: runs that find some of the files, see `C100_losses_wrong`. -/
theorem C100_losses_partial (hs : Separate name S) (runs : List (Bool × List M × List F))
    (hr : ∀ r ∈ runs, ∀ p ∈ pairs r.2.1 r.2.2, S p) (force : Bool) (methods : List M) (forces : List F)
    (hp : ∀ p ∈ pairs methods forces, S p) (hne : pairs methods forces ≠ [])
    (hall : force = true ∨
      ∀ p ∈ pairs methods forces, (sweepHistory warm sim disp loss name runs).files (name p) = none) :
    let o := sweepMain force warm sim disp loss name methods forces (sweepHistory warm sim disp loss name runs)
    ∃ losses, o.1.losses = some losses ∧
      (∀ e ∈ o.2.2, ∃ a, e.2 = some a ∧ losses e.1.1 e.1.2 = some (loss a)) ∧
      ∀ m f, (m, f) ∉ pairs methods forces → losses m f = none := by
  intro o
  have hd : SweepHonest warm sim disp name S (sweepHistory warm sim disp loss name runs).files :=
    sweepHistory_honest hs hr
  obtain ⟨-, h2, h3, h4, -, h6, -⟩ := sweepMain_spec (loss := loss) hs force hp hd
  have htodo : ∀ p, p ∈ o.2.1 ↔ p ∈ pairs methods forces := by
    intro p
    rw [h3, mem_missing]
    constructor
    · exact fun h => h.1
    · intro h
      rcases hall with hf | hf
      · exact ⟨h, Or.inl hf⟩
      · exact ⟨h, Or.inr (hf p h)⟩
  have hone : o.2.1 ≠ [] := by
    obtain ⟨p, hpp⟩ := List.exists_mem_of_ne_nil _ hne
    exact List.ne_nil_of_mem ((htodo p).2 hpp)
  obtain ⟨losses, hl, hl2, hl3⟩ := h6 hone
  refine ⟨losses, hl, ?_, fun m f h => hl3 m f (fun h' => h ((htodo _).1 h'))⟩
  intro e he
  have he' : e ∈ (pairs methods forces).map (fun p => (p, o.1.files (name p))) := by
    rw [← h4]; exact he
  obtain ⟨p, hpp, rfl⟩ := List.mem_map.1 he'
  exact hl2 p ((htodo p).2 hpp)

theorem sweep_losses_other : ∀ (todo : List (M × F)) (s : Sweep A D L M F) (p : M × F), p ∉ todo →
    (todo.foldl (Sweep.pass warm sim disp loss name) s).losses p.1 p.2 = s.losses p.1 p.2
  | [], _, _, _ => rfl
  | q :: todo, s, p, h => by
    rw [List.foldl_cons, sweep_losses_other todo _ p (fun h' => h (List.mem_cons_of_mem _ h'))]
    have : ¬ (p.1 = q.1 ∧ p.2 = q.2) := fun h' => h (by rw [Prod.ext h'.1 h'.2]; simp)
    simp [Sweep.pass, this]

/-- A run that finds the file of one pair and not that of another drops the loss of the first from the file of
losses, whatever was in it. -/
theorem C100_losses_wrong (warm : M → Bool) (sim : M × F → Option D → A) (disp : A → D) (loss : A → L)
    (name : M × F → String) (methods : List M) (forces : List F) (d : Directory A L M F) (p q : M × F)
    (hq : q ∈ pairs methods forces)
    (hfile : d.files (name p) ≠ none) (hmiss : d.files (name q) = none) :
    ∃ losses, (sweepMain false warm sim disp loss name methods forces d).1.losses = some losses ∧
      losses p.1 p.2 = none := by
  have hmem : q ∈ missing false name (pairs methods forces) d.files := mem_missing.2 ⟨hq, Or.inr hmiss⟩
  have hne : missing false name (pairs methods forces) d.files ≠ [] := List.ne_nil_of_mem hmem
  have hnot : p ∉ missing false name (pairs methods forces) d.files := by
    intro h
    rcases (mem_missing.1 h).2 with h | h
    · exact absurd h (by simp)
    · exact hfile h
  simp only [sweepMain, if_neg hne]
  exact ⟨_, rfl, sweep_losses_other _ _ p hnot⟩

example :
    let d := sweepHistory (D := ℕ) (fun m => m = "qsm") (fun p _ => p.2) id id (forceName "BBO")
      [(false, ["qsm"], [20000000])]
    (∃ losses, d.losses = some losses ∧ losses "qsm" 20000000 = some 20000000) ∧
    d.files (forceName "BBO" ("qsm", 20000000)) = some 20000000 ∧
    d.files (forceName "BBO" ("qsm", 22500000)) = none ∧
    ("qsm", 22500000) ∈ pairs ["qsm"] [20000000, 22500000] := by
  refine ⟨⟨_, rfl, ?_⟩, ?_, ?_, ?_⟩ <;> decide +kernel

end Sweep

section Penetration

variable {A D I : Type} [DecidableEq I] {name : I → String} {sim : I → Option D → A} {disp : A → D}
  {S : I → Prop}

theorem previous_eq {igs l1 l2 : List I} {b c : I} (hn : igs.Nodup) (h : igs = l1 ++ b :: c :: l2) :
    previous igs c = some b := by
  have hc : c ∉ l1 ++ [b] := by
    rw [h, show l1 ++ b :: c :: l2 = (l1 ++ [b]) ++ c :: l2 by simp] at hn
    exact fun hm => (List.nodup_append.1 hn).2.2 c hm c (by simp) rfl
  have hi : igs.idxOf c = l1.length + 1 := by
    rw [h, show l1 ++ b :: c :: l2 = (l1 ++ [b]) ++ c :: l2 by simp, List.idxOf_append_of_notMem hc]
    simp
  unfold previous
  rw [hi, if_neg (by omega), h]
  simp

omit [DecidableEq I] in
/-- The value before the next missing one is the last missing one or is not missing. -/
theorem next_before {f : I → Bool} {igs t1 r : List I} {ig next : I}
    (h : igs.filter f = t1 ++ ig :: next :: r) :
    ∃ l0 p l2, igs = l0 ++ p :: next :: l2 ∧ (f p = true → p = ig) := by
  rw [show t1 ++ ig :: next :: r = (t1 ++ [ig]) ++ next :: r by simp] at h
  obtain ⟨l1, l2, h1, h2, h3⟩ := List.filter_eq_append_iff.1 h
  obtain ⟨m1, m2, h4, h5, -, -⟩ := List.filter_eq_cons_iff.1 h3
  rcases List.eq_nil_or_concat m1 with rfl | ⟨m0, p, rfl⟩
  · rcases List.eq_nil_or_concat l1 with rfl | ⟨l0, p, rfl⟩
    · simp at h2
    · refine ⟨l0, p, m2, by simp [h1, h4], fun hp => ?_⟩
      rw [List.concat_eq_append, List.filter_append, List.filter_cons_of_pos hp] at h2
      simp only [List.filter_nil] at h2
      exact (List.append_inj' h2 rfl).2 |> List.cons.inj |>.1
  · refine ⟨l1 ++ m0, p, m2, by simp [h1, h4], fun hp => ?_⟩
    exact absurd hp (h5 p (by simp))

theorem loop_total {f : I → Bool} {igs : List I} (hn : igs.Nodup) :
    ∀ (rest t1 : List I) (fs : Files A) (start : Option D), igs.filter f = t1 ++ rest →
      (∀ x ∈ igs, f x = false → fs (name x) ≠ none) →
      ∃ fs', penetrationLoop name sim disp igs rest fs start = some fs'
  | [], _, fs, _, _, _ => ⟨fs, rfl⟩
  | [ig], t1, fs, start, _, _ => ⟨_, rfl⟩
  | ig :: next :: r, t1, fs, start, h, hall => by
    obtain ⟨l0, p, l2, hi, hp⟩ := next_before h
    have hprev := previous_eq hn hi
    have hstep : ∀ (a : A) (st : Option D), ∃ fs',
        penetrationLoop name sim disp igs (next :: r) (fs.write (name ig) a) st = some fs' :=
      fun a st => loop_total hn (next :: r) (t1 ++ [ig]) _ st (by simp [h])
        (fun x hx hf => write_ne_none _ (hall x hx hf))
    unfold penetrationLoop
    simp only [List.head?_cons, hprev]
    split_ifs with he
    · exact hstep _ _
    · have hpf : f p = false := by
        by_contra hc
        exact he (hp (by simpa using hc)).symm
      obtain ⟨a, ha⟩ := Option.ne_none_iff_exists'.1 (hall p (by rw [hi]; simp) hpf)
      rw [ha]
      exact hstep _ _

theorem loop_step {igs : List I} {ig : I} {rest : List I} {fs fs' : Files A} {start : Option D}
    (h : penetrationLoop name sim disp igs (ig :: rest) fs start = some fs') :
    ∃ a st, penetrationLoop name sim disp igs rest (fs.write (name ig) a) st = some fs' := by
  unfold penetrationLoop at h
  dsimp only at h
  split at h
  · exact ⟨_, _, h⟩
  · split at h
    · simp at h
    · split_ifs at h
      · exact ⟨_, _, h⟩
      · split at h
        · simp at h
        · exact ⟨_, _, h⟩

theorem loop_kept {igs : List I} : ∀ (rest : List I) (fs fs' : Files A) (start : Option D),
    penetrationLoop name sim disp igs rest fs start = some fs' →
      ∀ n, (∀ p ∈ rest, n ≠ name p) → fs' n = fs n
  | [], fs, fs', _, h, n, _ => by
    unfold penetrationLoop at h
    rw [Option.some.inj h]
  | ig :: rest, fs, fs', _, h, n, hn => by
    obtain ⟨a, st, h'⟩ := loop_step h
    rw [loop_kept rest _ _ _ h' n (fun p hp => hn p (List.mem_cons_of_mem _ hp)),
      write_other _ (hn ig (by simp))]

theorem loop_made {igs : List I} : ∀ (rest : List I) (fs fs' : Files A) (start : Option D),
    penetrationLoop name sim disp igs rest fs start = some fs' →
      (∀ n, fs n ≠ none → fs' n ≠ none) ∧ ∀ p ∈ rest, fs' (name p) ≠ none
  | [], fs, fs', _, h => by
    unfold penetrationLoop at h
    rw [Option.some.inj h]
    exact ⟨fun n hn => hn, by simp⟩
  | ig :: rest, fs, fs', _, h => by
    obtain ⟨a, st, h'⟩ := loop_step h
    obtain ⟨h1, h2⟩ := loop_made rest _ _ _ h'
    refine ⟨fun n hn => h1 n (write_ne_none _ hn), fun p hp => ?_⟩
    rcases List.mem_cons.1 hp with rfl | hp
    · exact h1 _ (by rw [write_same]; exact Option.some_ne_none _)
    · exact h2 p hp

theorem loop_prefix {igs : List I} : ∀ (t1 rest : List I) (fs fs' : Files A) (start : Option D),
    penetrationLoop name sim disp igs (t1 ++ rest) fs start = some fs' →
      ∃ fs1 st, penetrationLoop name sim disp igs rest fs1 st = some fs' ∧
        ∀ n, (∀ p ∈ t1, n ≠ name p) → fs1 n = fs n
  | [], rest, fs, fs', start, h => ⟨fs, start, h, fun _ _ => rfl⟩
  | ig :: t1, rest, fs, fs', start, h => by
    obtain ⟨a, st, h'⟩ := loop_step h
    obtain ⟨fs1, st', h1, h2⟩ := loop_prefix t1 rest _ _ _ h'
    exact ⟨fs1, st', h1, fun n hn => by
      rw [h2 n (fun p hp => hn p (List.mem_cons_of_mem _ hp)), write_other _ (hn ig (by simp))]⟩

/-- Simulations of neighbours: each file gets the state of its own value. -/
theorem loop_contiguous (hs : Separate name S) {igs : List I} (hn : igs.Nodup) (hS : ∀ p ∈ igs, S p) :
    ∀ (rest pre post : List I) (fs : Files A) (start : Option D), igs = pre ++ rest ++ post →
      ∃ fs', penetrationLoop name sim disp igs rest fs start = some fs' ∧
        (∀ p ∈ rest, fs' (name p) = some (sim p (if rest.head? = some p then start else none)))
  | [], _, _, fs, _, _ => ⟨fs, rfl, by simp⟩
  | [ig], _, _, fs, start, _ => by
    refine ⟨fs.write (name ig) (sim ig start), rfl, ?_⟩
    intro p hp
    obtain rfl := List.mem_singleton.1 hp
    rw [write_same, List.head?_cons, if_pos rfl]
  | ig :: next :: r, pre, post, fs, start, hi => by
    have hi' : igs = pre ++ ig :: next :: (r ++ post) := by rw [hi]; simp
    have hprev := previous_eq hn hi'
    obtain ⟨fs', h1, h3⟩ := loop_contiguous hs hn hS (next :: r) (pre ++ [ig]) post
      (fs.write (name ig) (sim ig start)) none (by rw [hi]; simp)
    have h2 := loop_kept _ _ _ _ h1
    have hnot : ig ∉ next :: r := by
      rw [hi'] at hn
      have := (List.nodup_cons.1 (List.nodup_append.1 hn).2.1).1
      intro hm
      exact this (by
        rw [show next :: (r ++ post) = (next :: r) ++ post by simp]
        exact List.mem_append_left _ hm)
    refine ⟨fs', ?_, ?_⟩
    · unfold penetrationLoop
      simp only [List.head?_cons, hprev, if_true]
      exact h1
    · intro p hp
      rcases List.mem_cons.1 hp with rfl | hp
      · rw [h2 (name p) ?_, write_same, List.head?_cons, if_pos rfl]
        intro q hq he
        have hSp : S p := hS p (by rw [hi']; simp)
        have hSq : S q := hS q (by
          rw [hi]
          exact List.mem_append_left _ (List.mem_append_right _ (List.mem_cons_of_mem _ hq)))
        exact hnot (by rw [hs p q hSp hSq he]; exact hq)
      · rw [h3 p hp]
        have hne : ig ≠ p := fun h => hnot (h ▸ hp)
        simp [hne]

omit [DecidableEq I] in
theorem missing_filter (name : I → String) (igs : List I) (fs : Files A) :
    missing false name igs fs = igs.filter fun p => (fs (name p)).isNone := rfl

theorem penetration_start_total {igs : List I} (hn : igs.Nodup) (force : Bool) (fs : Files A)
    (disp : A → D) (name : I → String) :
    ∃ st, penetrationStart name disp igs (missing force name igs fs) fs = some st := by
  unfold penetrationStart
  split_ifs with hh
  · exact ⟨none, rfl⟩
  · have hforce : force = false := by
      by_contra hf
      exact hh (by simp [missing, hf])
    subst hforce
    cases ht : missing false name igs fs with
    | nil => exact ⟨none, rfl⟩
    | cons first r =>
      rw [missing_filter] at ht
      obtain ⟨l1, l2, h4, h5, -, -⟩ := List.filter_eq_cons_iff.1 ht
      rcases List.eq_nil_or_concat l1 with rfl | ⟨l0, p, rfl⟩
      · refine absurd ?_ hh
        rw [missing_filter, ht, h4]
        rfl
      · have hprev := previous_eq hn (show igs = l0 ++ p :: first :: l2 by rw [h4]; simp)
        have hne : fs (name p) ≠ none := by
          have := h5 p (by simp)
          simpa [Option.isNone_iff_eq_none] using this
        obtain ⟨a, ha⟩ := Option.ne_none_iff_exists'.1 hne
        exact ⟨some (disp a), by simp [hprev, ha]⟩

/-- The example never fails for different values. -/
theorem penetration_total {igs : List I} (hn : igs.Nodup) (force : Bool) (fs : Files A) :
    ∃ o, penetrationMain force name sim disp igs fs = some o ∧
      o.simulated = missing force name igs fs ∧ o.shown = igs.map (fun ig => (ig, o.files (name ig))) ∧
      (missing force name igs fs = [] → o.files = fs) ∧
      (missing force name igs fs ≠ [] → ∃ st, penetrationStart name disp igs (missing force name igs fs) fs = some st ∧
        penetrationLoop name sim disp igs (missing force name igs fs) fs st = some o.files) := by
  obtain ⟨st, hst⟩ := penetration_start_total hn force fs disp name
  have hloop : ∃ fs', penetrationLoop name sim disp igs (missing force name igs fs) fs st = some fs' := by
    cases force with
    | false =>
      exact loop_total hn (missing false name igs fs) [] fs st (by rw [missing_filter]; rfl) (by
        intro x _ hx h0
        rw [h0] at hx
        exact absurd hx (by simp))
    | true =>
      exact loop_total (f := fun _ => true) hn (missing true name igs fs) [] fs st (by simp [missing])
        (by simp)
  obtain ⟨fs', hfs⟩ := hloop
  unfold penetrationMain
  cases ht : missing force name igs fs with
  | nil => exact ⟨_, rfl, rfl, rfl, fun _ => rfl, fun h => absurd rfl h⟩
  | cons a r =>
    rw [ht] at hst hfs
    simp only [hst, Option.bind_some, hfs]
    exact ⟨_, rfl, rfl, rfl, fun h => absurd h (by simp), fun _ => ⟨st, rfl, hfs⟩⟩

/-- C100 for the penetration example: when the values to be simulated are neighbours, as in a forced run or in the
first one, each value is shown with a state simulated for it, and files stay so. Missing for the full claim:
gaps, see `C100_penetration_wrong`, and files of test runs, see `C100_penetration_test_wrong`. -/
theorem C100_penetration_partial (hs : Separate name S) (force : Bool) (fs : Files A)
    (hh : HonestUpToStart name sim S fs) (pre mid post : List I) (hn : (pre ++ mid ++ post).Nodup)
    (hS : ∀ p ∈ pre ++ mid ++ post, S p)
    (hmid : missing force name (pre ++ mid ++ post) fs = mid) :
    ∃ o, penetrationMain force name sim disp (pre ++ mid ++ post) fs = some o ∧ o.simulated = mid ∧
      o.shown.map Prod.fst = pre ++ mid ++ post ∧ (∀ e ∈ o.shown, ∃ w, e.2 = some (sim e.1 w)) ∧
      HonestUpToStart name sim S o.files ∧
      penetrationMain false name sim disp (pre ++ mid ++ post) o.files = some ⟨o.files, [], o.shown⟩ := by
  obtain ⟨o, h1, h2, h3, h4, h5⟩ := penetration_total (sim := sim) (disp := disp) (name := name) hn force fs
  rw [hmid] at h2 h4 h5
  have key : (∀ p ∈ mid, ∃ w, o.files (name p) = some (sim p w)) ∧
      ∀ n, (∀ p ∈ mid, n ≠ name p) → o.files n = fs n := by
    by_cases hm : mid = []
    · rw [h4 hm]
      exact ⟨by simp [hm], fun _ _ => rfl⟩
    · obtain ⟨st, -, hl⟩ := h5 hm
      obtain ⟨fs', g1, g2⟩ := loop_contiguous (sim := sim) (disp := disp) hs hn hS mid pre post fs st rfl
      rw [hl] at g1
      obtain rfl := Option.some.inj g1
      exact ⟨fun p hp => ⟨_, g2 p hp⟩, loop_kept _ _ _ _ hl⟩
  have hall : ∀ p ∈ pre ++ mid ++ post, ∃ w, o.files (name p) = some (sim p w) := by
    intro p hp
    by_cases hpm : p ∈ mid
    · exact key.1 p hpm
    · have hne : fs (name p) ≠ none := by
        intro h0
        have := (mem_missing (force := force) (nm := name) (fs := fs)).2 ⟨hp, Or.inr h0⟩
        rw [hmid] at this
        exact hpm this
      obtain ⟨a, ha⟩ := Option.ne_none_iff_exists'.1 hne
      obtain ⟨w, hw⟩ := hh p (hS p hp) a ha
      refine ⟨w, ?_⟩
      rw [key.2 (name p), ha, hw]
      intro q hq he
      exact hpm (by
        rw [hs p q (hS p hp) (hS q (List.mem_append_left _ (List.mem_append_right _ hq))) he]; exact hq)
  refine ⟨o, h1, h2, ?_, ?_, ?_, ?_⟩
  · rw [h3, List.map_map]
    exact List.map_id' _
  · intro e he
    rw [h3] at he
    obtain ⟨p, hp, rfl⟩ := List.mem_map.1 he
    exact hall p hp
  · intro p hp a ha
    by_cases hex : ∃ q ∈ mid, name p = name q
    · obtain ⟨q, hq, he⟩ := hex
      have hqS := hS q (List.mem_append_left _ (List.mem_append_right _ hq))
      obtain rfl := hs p q hp hqS he
      obtain ⟨w, hw⟩ := key.1 p hq
      rw [ha] at hw
      exact ⟨w, Option.some.inj hw⟩
    · push Not at hex
      rw [key.2 (name p) hex] at ha
      exact hh p hp a ha
  · have hnil : missing false name (pre ++ mid ++ post) o.files = [] := by
      rw [List.eq_nil_iff_forall_not_mem]
      intro p hpm
      obtain ⟨ha, hb⟩ := mem_missing.1 hpm
      obtain ⟨w, hw⟩ := hall p ha
      rcases hb with hb | hb
      · exact absurd hb (by simp)
      · rw [hw] at hb
        exact Option.some_ne_none _ hb
    simp only [penetrationMain, hnil]
    rw [h3]

omit [DecidableEq I] in
theorem penetrationName_separate : Separate penetrationName fun _ => True := by
  intro p q _ _ h
  have := congrArg String.toList h
  unfold penetrationName at this
  simp only [String.toList_append, List.append_cancel_left_eq] at this
  exact String.toList_injective this

/-- Forced runs and first runs are of this kind. -/
theorem C100_penetration_forced_partial (hs : Separate name S) (fs : Files A)
    (hh : HonestUpToStart name sim S fs) (igs : List I) (hn : igs.Nodup) (hS : ∀ p ∈ igs, S p) (force : Bool)
    (hf : force = true ∨ ∀ p ∈ igs, fs (name p) = none) :
    ∃ o, penetrationMain force name sim disp igs fs = some o ∧ o.simulated = igs ∧
      o.shown.map Prod.fst = igs ∧ (∀ e ∈ o.shown, ∃ w, e.2 = some (sim e.1 w)) ∧
      HonestUpToStart name sim S o.files := by
  have hm : missing force name igs fs = igs := by
    unfold missing
    split_ifs with h
    · rfl
    · rw [List.filter_eq_self]
      rcases hf with hf | hf
      · exact absurd hf h
      · intro p hp
        simp [hf p hp]
  obtain ⟨o, h1, h2, h3, h4, h5, -⟩ := C100_penetration_partial (sim := sim) (disp := disp) hs force fs hh [] igs []
    (by simpa using hn) (by simpa using hS) (by simpa using hm)
  simp only [List.nil_append, List.append_nil] at h1 h2 h3
  exact ⟨o, h1, h2, h3, h4, h5⟩

/-- A gap: if `a` and `c` are missing and the values between them, at least one, have files, then the state that
the run shows for `a` is the one of the file of the value before `c`. -/
theorem C100_penetration_wrong (hs : Separate name S) (fs : Files A) (pre mid post : List I) (a b c : I)
    (hn : (pre ++ a :: mid ++ b :: c :: post).Nodup) (hS : ∀ p ∈ pre ++ a :: mid ++ b :: c :: post, S p)
    (ha : fs (name a) = none) (hc : fs (name c) = none)
    (hmid : ∀ p ∈ mid ++ [b], fs (name p) ≠ none) :
    ∃ o, penetrationMain false name sim disp (pre ++ a :: mid ++ b :: c :: post) fs = some o ∧
      o.files (name a) = fs (name b) ∧ (a, fs (name b)) ∈ o.shown := by
  set igs := pre ++ a :: mid ++ b :: c :: post with higs
  obtain ⟨o, h1, h2, h3, h4, h5⟩ := penetration_total (sim := sim) (disp := disp) (name := name) hn false fs
  have hmidf : mid.filter (fun p => (fs (name p)).isNone) = [] := by
    rw [List.filter_eq_nil_iff]
    intro p hp
    simpa [Option.isNone_iff_eq_none] using hmid p (List.mem_append_left _ hp)
  have hb : fs (name b) ≠ none := hmid b (by simp)
  have htodo : missing false name igs fs =
      pre.filter (fun p => (fs (name p)).isNone) ++ a :: c :: post.filter (fun p => (fs (name p)).isNone) := by
    rw [missing_filter, higs, List.filter_append, List.filter_append, List.filter_cons_of_pos (by simp [ha]),
      hmidf, List.filter_cons_of_neg (by simpa [Option.isNone_iff_eq_none] using hb),
      List.filter_cons_of_pos (by simp [hc])]
    simp
  obtain ⟨st, -, hl⟩ := h5 (by rw [htodo]; simp)
  rw [htodo] at hl
  obtain ⟨fs1, st1, hl1, hkeep⟩ := loop_prefix _ _ _ _ _ hl
  have hmemb : b ∈ igs := by rw [higs]; simp
  have hmema : a ∈ igs := by rw [higs]; simp
  have hab : a ≠ b := by
    intro h
    rw [h] at ha
    exact hb ha
  have hb1 : fs1 (name b) = fs (name b) := by
    refine hkeep _ fun p hp he => ?_
    obtain ⟨hp1, hp2⟩ := List.mem_filter.1 hp
    have hpi : p ∈ igs := by rw [higs]; simp [hp1]
    have := hs b p (hS b hmemb) (hS p hpi) he
    rw [← this, Option.isNone_iff_eq_none] at hp2
    exact hb hp2
  obtain ⟨x, hx⟩ := Option.ne_none_iff_exists'.1 hb
  have hprev : previous igs c = some b :=
    previous_eq (l1 := pre ++ a :: mid) (l2 := post) hn (by rw [higs])
  unfold penetrationLoop at hl1
  simp only [List.head?_cons, hprev, if_neg hab, hb1, hx] at hl1
  have hfin := loop_kept _ _ _ _ hl1 (name a) (by
    intro p hp he
    have hpi : p ∈ c :: post := by
      rcases List.mem_cons.1 hp with rfl | hp
      · simp
      · exact List.mem_cons_of_mem _ (List.mem_filter.1 hp).1
    have hpi' : p ∈ igs := by
      rw [higs]
      exact List.mem_append_right _ (List.mem_cons_of_mem _ hpi)
    obtain rfl := hs a p (hS a hmema) (hS p hpi') he
    exact (List.nodup_append.1 hn).2.2 a (by simp) a (List.mem_cons_of_mem _ hpi) rfl)
  rw [write_same] at hfin
  refine ⟨o, h1, by rw [hfin, hx], ?_⟩
  rw [h3]
  exact List.mem_map.2 ⟨a, hmema, by rw [hfin, hx]⟩

/-- The names do not tell test runs, on a coarse mesh, from others: after a test run another one without `force`
shows the states of the test, whatever the simulations are. -/
theorem C100_penetration_test_wrong (force : Bool) (igs : List I) (fs : Files A) (hn : igs.Nodup)
    (test full : I → Option D → A) :
    ∃ o, penetrationMain force name test disp igs fs = some o ∧
      penetrationMain false name full disp igs o.files = some ⟨o.files, [], o.shown⟩ := by
  obtain ⟨o, h1, h2, h3, h4, h5⟩ := penetration_total (sim := test) (disp := disp) (name := name) hn force fs
  refine ⟨o, h1, ?_⟩
  have hnil : missing false name igs o.files = [] := by
    rw [List.eq_nil_iff_forall_not_mem]
    intro p hpm
    obtain ⟨ha, hb⟩ := mem_missing.1 hpm
    rcases hb with hb | hb
    · exact absurd hb (by simp)
    · by_cases hm : missing force name igs fs = []
      · rw [h4 hm] at hb
        have : p ∈ missing force name igs fs := mem_missing.2 ⟨ha, Or.inr hb⟩
        rw [hm] at this
        simp at this
      · obtain ⟨st, -, hl⟩ := h5 hm
        obtain ⟨g1, g2⟩ := loop_made _ _ _ _ hl
        by_cases hp : p ∈ missing force name igs fs
        · exact g2 p hp hb
        · exact g1 (name p) (fun h0 => hp (mem_missing.2 ⟨ha, Or.inr h0⟩)) hb
  simp only [penetrationMain, hnil]
  rw [h3]

example : (penetrationMain false penetrationName (fun ig (w : Option ℕ) => (ig, w.isSome)) (fun _ => 0)
      ["1", "2", "4", "inf"]
      ((Files.empty.write (penetrationName "2") ("2", false)).write (penetrationName "4") ("4", false))).map
        (fun o => (o.simulated, o.shown)) =
    some (["1", "inf"], [("1", some ("4", false)), ("2", some ("2", false)), ("4", some ("4", false)),
      ("inf", some ("inf", true))]) := by
  decide +kernel

example : (penetrationMain false penetrationName (fun ig (w : Option ℕ) => (ig, w.isSome)) (fun _ => 0)
      ["1", "2", "4", "inf"] (Files.empty.write (penetrationName "1") ("1", false))).map
        (fun o => (o.simulated, o.shown)) =
    some (["2", "4", "inf"], [("1", some ("1", false)), ("2", some ("2", true)), ("4", some ("4", false)),
      ("inf", some ("inf", false))]) := by
  decide +kernel

end Penetration

section Wave

variable {A : Type}

theorem waveName_inj {n m : String} {i j : ℕ} (h : waveName n i = waveName m j) : n = m ∧ i = j := by
  have := congrArg String.toList h
  unfold waveName at this
  simp only [String.toList_append,
    show "_step_".toList = ['_', 's', 't', 'e', 'p'] ++ ['_'] by decide] at this
  rw [← List.append_assoc, ← List.append_assoc, List.append_assoc, List.append_assoc _ ['_'],
    List.singleton_append, List.singleton_append] at this
  obtain ⟨h1, h2⟩ := last_separator (toString_nat_plain i) (toString_nat_plain j) this
  exact ⟨String.toList_injective (List.append_cancel_right h1),
    toString_nat_inj (String.toList_injective h2)⟩

theorem saveFrom_other (name : String) : ∀ (l : List A) (i : ℕ) (fs : Files A) (n : String),
    (∀ j, i ≤ j → j < i + l.length → n ≠ waveName name j) → saveFrom name i l fs n = fs n
  | [], _, _, _, _ => rfl
  | a :: l, i, fs, n, h => by
    unfold saveFrom
    rw [saveFrom_other name l (i + 1) _ n (fun j h1 h2 => h j (by omega) (by simp; omega)),
      write_other _ (h i (by omega) (by simp))]

theorem saveFrom_get (name : String) : ∀ (l : List A) (i k : ℕ) (fs : Files A) (hk : k < l.length),
    saveFrom name i l fs (waveName name (i + k)) = some l[k]
  | a :: l, i, 0, fs, _ => by
    unfold saveFrom
    rw [saveFrom_other name l (i + 1) _ _ (fun j h1 _ he => by
      have := (waveName_inj he).2
      omega)]
    exact write_same _ _ _
  | a :: l, i, k + 1, fs, hk => by
    unfold saveFrom
    have := saveFrom_get name l (i + 1) k (fs.write (waveName name i) a) (by simpa using hk)
    rw [show i + (k + 1) = i + 1 + k by omega, this]
    rfl

/-- The files after some runs, each with its `force`, its name, its number of steps and its trajectory. -/
def waveHistory (runs : List (Bool × String × ℕ × (ℕ → A))) : Files A :=
  runs.foldl (fun fs r => (waveRunner r.1 r.2.1 r.2.2.1 r.2.2.2 fs).2.1) Files.empty

theorem waveRunner_other (force : Bool) (name : String) (steps : ℕ) (trajectory : ℕ → A) (fs : Files A)
    (n : String) (h : ∀ j < 4, n ≠ waveName name j) :
    (waveRunner force name steps trajectory fs).2.1 n = fs n := by
  unfold waveRunner
  split_ifs
  · exact saveFrom_other name _ 0 fs n (fun j _ h2 => h j (by simpa [waveSteps] using h2))
  · rfl

/-- Only the numbers 0 to 3 occur in names of files. -/
theorem waveHistory_none (runs : List (Bool × String × ℕ × (ℕ → A))) (name : String) (k : ℕ) (hk : 4 ≤ k) :
    waveHistory runs (waveName name k) = none := by
  unfold waveHistory
  suffices h : ∀ fs : Files A, fs (waveName name k) = none →
      runs.foldl (fun fs r => (waveRunner r.1 r.2.1 r.2.2.1 r.2.2.2 fs).2.1) fs (waveName name k) = none by
    exact h _ rfl
  induction runs with
  | nil => exact fun fs h => h
  | cons r runs ih =>
    intro fs h
    refine ih _ ?_
    show (waveRunner r.1 r.2.1 r.2.2.1 r.2.2.2 fs).2.1 (waveName name k) = none
    rw [waveRunner_other _ _ _ _ _ _ (fun j hj he => by
      have := (waveName_inj he).2
      omega)]
    exact h

/-- C100 for the wave example, from four steps on: after any runs the states of the requested simulation are drawn.
They are simulated again in each run: files are never found. Missing for the full claim: fewer steps, see
`C100_wave_wrong`. -/
theorem C100_wave_partial (runs : List (Bool × String × ℕ × (ℕ → A))) (force : Bool) (name : String)
    (steps : ℕ) (h4 : 4 ≤ steps) (trajectory : ℕ → A) :
    let o := waveRunner force name steps trajectory (waveHistory runs)
    o.1 = (waveSteps steps).map (fun k => some (trajectory k)) ∧ o.2.2 = true := by
  intro o
  have hany : ((waveSteps steps).any fun k => (waveHistory runs (waveName name k)).isNone) = true := by
    rw [List.any_eq_true]
    exact ⟨steps, by simp [waveSteps], by rw [waveHistory_none runs name steps h4]; rfl⟩
  have ho : o = ((((waveSteps steps).map trajectory).map some,
      saveFrom name 0 ((waveSteps steps).map trajectory) (waveHistory runs), true)) := by
    show waveRunner force name steps trajectory (waveHistory runs) = _
    unfold waveRunner
    rw [hany, Bool.or_true, if_pos rfl]
  rw [ho]
  exact ⟨by rw [List.map_map]; rfl, rfl⟩

/-- With three steps files are found again and hold the states of the requested steps. -/
theorem C100_wave_three_partial (name : String) (trajectory : ℕ → A) (fs : Files A) (force : Bool) :
    let o := waveRunner true name 3 trajectory fs
    let r := waveRunner force name 3 trajectory o.2.1
    o.1 = (waveSteps 3).map (fun k => some (trajectory k)) ∧ r.1 = o.1 ∧ r.2.2 = force := by
  intro o r
  have h0 : o.2.1 (waveName name 0) = some (trajectory 0) :=
    saveFrom_get name ((waveSteps 3).map trajectory) 0 0 fs (by simp [waveSteps])
  have h1 : o.2.1 (waveName name 1) = some (trajectory 1) :=
    saveFrom_get name ((waveSteps 3).map trajectory) 0 1 fs (by simp [waveSteps])
  have h2 : o.2.1 (waveName name 2) = some (trajectory 2) :=
    saveFrom_get name ((waveSteps 3).map trajectory) 0 2 fs (by simp [waveSteps])
  have h3 : o.2.1 (waveName name 3) = some (trajectory 3) :=
    saveFrom_get name ((waveSteps 3).map trajectory) 0 3 fs (by simp [waveSteps])
  have hw : waveSteps 3 = [0, 1, 2, 3] := by decide
  refine ⟨rfl, ?_, ?_⟩ <;>
  · show _ = _
    simp only [r, waveRunner, hw, List.any_cons, List.any_nil, h0, h1, h2, h3, List.map_cons, List.map_nil]
    cases force <;> rfl

/-- With one or two steps, and with three after a longer run of the same name, wrong states are drawn: the last
one is not the state of the last step. -/
theorem C100_wave_wrong (name : String) (trajectory : ℕ → A) (fs : Files A) :
    (waveRunner false name 1 trajectory (waveRunner true name 1 trajectory fs).2.1).1 =
      [some (trajectory 0), some (trajectory 0), some (trajectory 0), some (trajectory 0)] ∧
    (waveRunner false name 2 trajectory (waveRunner true name 2 trajectory fs).2.1).1 =
      [some (trajectory 0), some (trajectory 1), some (trajectory 1), some (trajectory 1)] ∧
    ∀ (steps : ℕ) (other : ℕ → A),
      (waveRunner false name 3 trajectory (waveRunner true name steps other fs).2.1).1 =
        (waveSteps steps).map fun k => some (other k) := by
  have key : ∀ (steps : ℕ) (t : ℕ → A) (k : ℕ) (hk : k < 4),
      (waveRunner true name steps t fs).2.1 (waveName name k) =
        some (((waveSteps steps).map t)[k]'(by simpa [waveSteps] using hk)) := by
    intro steps t k hk
    have := saveFrom_get name ((waveSteps steps).map t) 0 k fs (by simpa [waveSteps] using hk)
    rw [Nat.zero_add] at this
    exact this
  refine ⟨?_, ?_, ?_⟩
  · have hw : waveSteps 1 = [0, 0, 0, 1] := by decide
    have h0 := key 1 trajectory 0 (by omega)
    have h1 := key 1 trajectory 1 (by omega)
    simp only [hw, List.map_cons, List.map_nil, List.getElem_cons_zero, List.getElem_cons_succ] at h0 h1
    rw [waveRunner]
    simp only [hw, List.any_cons, List.any_nil, h0, h1, List.map_cons, List.map_nil]
    rfl
  · have hw : waveSteps 2 = [0, 1, 1, 2] := by decide
    have h0 := key 2 trajectory 0 (by omega)
    have h1 := key 2 trajectory 1 (by omega)
    have h2 := key 2 trajectory 2 (by omega)
    simp only [hw, List.map_cons, List.map_nil, List.getElem_cons_zero, List.getElem_cons_succ] at h0 h1 h2
    rw [waveRunner]
    simp only [hw, List.any_cons, List.any_nil, h0, h1, h2, List.map_cons, List.map_nil]
    rfl
  · intro steps other
    have hw : waveSteps 3 = [0, 1, 2, 3] := by decide
    have h0 := key steps other 0 (by omega)
    have h1 := key steps other 1 (by omega)
    have h2 := key steps other 2 (by omega)
    have h3 := key steps other 3 (by omega)
    rw [waveRunner]
    simp only [hw, List.any_cons, List.any_nil, h0, h1, h2, h3, List.map_cons, List.map_nil]
    rfl

example : (waveRunner false "case_1_int_plain" 501 id (waveHistory [(true, "case_1_int_plain", 501, id)])).1 =
    [some 125, some 250, some 375, some 501] :=
  (C100_wave_partial [(true, "case_1_int_plain", 501, id)] false "case_1_int_plain" 501 (by norm_num) id).1

end Wave

section Times

variable {A K : Type} [Field K] [LinearOrder K] [IsStrictOrderedRing K] [FloorRing K]

theorem timeName_inj {h g : ℕ} {n m : String} {i j : ℤ} (he : timeName h n i = timeName g m j) :
    n = m ∧ toString i = toString j ∧ h = g := by
  have := congrArg String.toList he
  unfold timeName at this
  simp only [String.toList_append, show "_h_".toList = ['_', 'h'] ++ ['_'] by decide,
    show "_t_".toList = ['_', 't'] ++ ['_'] by decide, List.append_assoc, List.singleton_append] at this
  have e1 : ∀ (a b c : List Char), a ++ (['_', 't'] ++ ('_' :: b ++ (['_', 'h'] ++ '_' :: c))) =
      ((a ++ ['_', 't']) ++ '_' :: (b ++ ['_', 'h'])) ++ '_' :: c := by intros; simp
  rw [e1, e1] at this
  obtain ⟨h1, h2⟩ := last_separator (toString_nat_plain h) (toString_nat_plain g) this
  have e2 : ∀ (a b : List Char), (a ++ ['_', 't']) ++ '_' :: (b ++ ['_', 'h']) =
      ((a ++ ['_', 't']) ++ '_' :: b) ++ ['_', 'h'] := by intros; simp
  rw [e2, e2] at h1
  obtain ⟨h3, h4⟩ := last_separator (toString_int_plain i) (toString_int_plain j) (List.append_cancel_right h1)
  exact ⟨String.toList_injective (List.append_cancel_right h3), String.toList_injective h4,
    toString_nat_inj (String.toList_injective h2)⟩

theorem stepOfTime_exact {dt : K} (hdt : 0 < dt) (k : ℕ) : stepOfTime (k * dt) dt = k := by
  unfold stepOfTime
  rw [mul_div_assoc, div_self hdt.ne', mul_one, Int.floor_natCast]

theorem stepOfTime_late {dt e : K} (hdt : 0 < dt) (k : ℕ) (he : 0 ≤ e) (he' : e < dt) :
    stepOfTime (k * dt + e) dt = k := by
  unfold stepOfTime
  rw [Int.floor_eq_iff, le_div_iff₀ hdt, div_lt_iff₀ hdt]
  push_cast
  constructor <;> nlinarith

theorem stepOfTime_early {dt e : K} (hdt : 0 < dt) (k : ℕ) (he : 0 < e) (he' : e ≤ dt) :
    stepOfTime (k * dt - e) dt = (k : ℤ) - 1 := by
  unfold stepOfTime
  rw [Int.floor_eq_iff, le_div_iff₀ hdt, div_lt_iff₀ hdt]
  push_cast
  constructor <;> nlinarith

/-- Files of names with steps hold the states of these steps. -/
def TimesHonest (trajectory : ℕ → String → ℕ → A) (fs : Files A) : Prop :=
  ∀ h n (k : ℕ) a, fs (timeName h n k) = some a → a = trajectory h n k

variable {time : A → K} {dt : ℕ → K} {trajectory : ℕ → String → ℕ → A}

/-- Times of the states of a run: at the step or later by less than a time step. -/
def TimesRight (time : A → K) (dt : ℕ → K) (trajectory : ℕ → String → ℕ → A) : Prop :=
  ∀ (h : ℕ) (n : String) (k : ℕ), (k : K) * dt h ≤ time (trajectory h n k) ∧ time (trajectory h n k) < (k + 1) * dt h

theorem stepOfTime_right (hdt : ∀ h, 0 < dt h) (ht : TimesRight time dt trajectory) (h : ℕ) (n : String)
    (k : ℕ) : stepOfTime (time (trajectory h n k)) (dt h) = k := by
  obtain ⟨h1, h2⟩ := ht h n k
  have := stepOfTime_late (hdt h) k (e := time (trajectory h n k) - k * dt h) (by linarith) (by linarith)
  rwa [show (k : K) * dt h + (time (trajectory h n k) - k * dt h) = time (trajectory h n k) by ring] at this

theorem saveStates_spec (hdt : ∀ h, 0 < dt h) (ht : TimesRight time dt trajectory) (h : ℕ) (n : String) :
    ∀ (ks : List ℕ) (fs : Files A), TimesHonest trajectory fs →
      TimesHonest trajectory (saveStates time (dt h) h n (ks.map (trajectory h n)) fs) ∧
      (∀ m, fs m ≠ none → saveStates time (dt h) h n (ks.map (trajectory h n)) fs m ≠ none) ∧
      ∀ k ∈ ks, saveStates time (dt h) h n (ks.map (trajectory h n)) fs (timeName h n k) ≠ none
  | [], fs, hh => ⟨hh, fun _ hm => hm, by simp⟩
  | k :: ks, fs, hh => by
    have hstep : TimesHonest trajectory (fs.write (timeName h n (stepOfTime (time (trajectory h n k)) (dt h)))
        (trajectory h n k)) := by
      rw [stepOfTime_right hdt ht]
      intro h' n' k' a ha
      unfold Files.write at ha
      split_ifs at ha with he
      · obtain ⟨rfl, e2, rfl⟩ := timeName_inj he
        obtain rfl := toString_cast_inj e2
        exact (Option.some.inj ha).symm
      · exact hh h' n' k' a ha
    obtain ⟨h1, h2, h3⟩ := saveStates_spec hdt ht h n ks _ hstep
    refine ⟨h1, fun m hm => h2 m (write_ne_none _ hm), ?_⟩
    intro j hj
    rcases List.mem_cons.1 hj with rfl | hj
    · refine h2 _ ?_
      rw [stepOfTime_right hdt ht, write_same]
      exact Option.some_ne_none _
    · exact h3 j hj

theorem saveAll_spec (hdt : ∀ h, 0 < dt h) (ht : TimesRight time dt trajectory) (h : ℕ)
    (outputs : String → List ℕ) :
    ∀ (names : List String) (fs : Files A), TimesHonest trajectory fs →
      let r := names.foldl
        (fun fs n => saveStates time (dt h) h n ((outputs n).map (trajectory h n)) fs) fs
      TimesHonest trajectory r ∧ (∀ m, fs m ≠ none → r m ≠ none) ∧
        ∀ n ∈ names, ∀ k ∈ outputs n, r (timeName h n k) ≠ none
  | [], fs, hh => ⟨hh, fun _ hm => hm, by simp⟩
  | n :: names, fs, hh => by
    obtain ⟨a1, a2, a3⟩ := saveStates_spec hdt ht h n (outputs n) fs hh
    obtain ⟨b1, b2, b3⟩ := saveAll_spec hdt ht h outputs names _ a1
    refine ⟨b1, fun m hm => b2 m (a2 m hm), ?_⟩
    intro m hm k hk
    rcases List.mem_cons.1 hm with rfl | hm
    · exact b2 _ (a3 k hk)
    · exact b3 m hm k hk

/-- A run: `force`, the mesh, the cases, the steps to be saved and to be read. -/
structure TimesRun where
  force : Bool
  h : ℕ
  names : List String
  outputs : String → List ℕ
  reads : String → List ℕ

/-- The files after some runs. -/
def timesHistory (time : A → K) (dt : ℕ → K) (trajectory : ℕ → String → ℕ → A) (runs : List TimesRun) :
    Files A :=
  runs.foldl (fun fs r =>
    (timesMain r.force time (dt r.h) r.h r.names r.outputs r.reads (trajectory r.h) fs).files) Files.empty

theorem timesMain_honest (hdt : ∀ h, 0 < dt h) (ht : TimesRight time dt trajectory) (r : TimesRun)
    {fs : Files A} (hh : TimesHonest trajectory fs) :
    TimesHonest trajectory
      (timesMain r.force time (dt r.h) r.h r.names r.outputs r.reads (trajectory r.h) fs).files := by
  unfold timesMain
  dsimp only
  split_ifs
  · exact (saveAll_spec hdt ht r.h r.outputs r.names fs hh).1
  · exact hh

theorem timesHistory_honest (hdt : ∀ h, 0 < dt h) (ht : TimesRight time dt trajectory)
    (runs : List TimesRun) : TimesHonest trajectory (timesHistory time dt trajectory runs) := by
  unfold timesHistory
  suffices h : ∀ fs : Files A, TimesHonest trajectory fs → TimesHonest trajectory
      (runs.foldl (fun fs r =>
        (timesMain r.force time (dt r.h) r.h r.names r.outputs r.reads (trajectory r.h) fs).files) fs) by
    exact h _ (fun h n k a ha => by simp [Files.empty] at ha)
  induction runs with
  | nil => exact fun fs h => h
  | cons r runs ih => exact fun fs h => ih _ (timesMain_honest hdt ht r h)

/-- C100 for the examples with files of time steps: if the times of states are not before their steps, then after any
runs, on any meshes, the states drawn are those of the cases and steps for which they are drawn, and a
repeated run without `force` simulates nothing. Missing for the full claim: times that rounding makes too
small, see `C100_times_wrong`. -/
theorem C100_times_partial (hdt : ∀ h, 0 < dt h) (ht : TimesRight time dt trajectory) (runs : List TimesRun)
    (r : TimesRun) (hr : ∀ n ∈ r.names, ∀ k ∈ r.reads n, k ∈ r.outputs n) :
    let run (force : Bool) (fs : Files A) :=
      timesMain force time (dt r.h) r.h r.names r.outputs r.reads (trajectory r.h) fs
    let o := run r.force (timesHistory time dt trajectory runs)
    Truthful (fun p : String × ℕ => trajectory r.h p.1 p.2)
      (r.names.flatMap fun n => (r.reads n).map fun k => (n, k)) o.shown ∧
      (run false o.files).simulated = [] ∧ (run false o.files).shown = o.shown := by
  intro run o
  have hh := timesHistory_honest hdt ht runs
  set fs := timesHistory time dt trajectory runs with hfs
  set wanted : List (String × ℕ) := r.names.flatMap fun n => (r.reads n).map fun k => (n, k) with hw
  have hshown : o.shown = wanted.map fun p => (p, o.files (timeName r.h p.1 p.2)) := rfl
  have hhon : TimesHonest trajectory o.files := timesMain_honest hdt ht r hh
  have hthere : ∀ p ∈ wanted, o.files (timeName r.h p.1 p.2) ≠ none := by
    intro p hp
    obtain ⟨n, hn, hp2⟩ := List.mem_flatMap.1 hp
    obtain ⟨k, hk, rfl⟩ := List.mem_map.1 hp2
    have ho : o.files = if (r.force || wanted.any fun p => (fs (timeName r.h p.1 p.2)).isNone) = true then
        r.names.foldl (fun fs n => saveStates time (dt r.h) r.h n ((r.outputs n).map (trajectory r.h n)) fs) fs
      else fs := rfl
    rw [ho]
    split_ifs with hc
    · exact (saveAll_spec hdt ht r.h r.outputs r.names fs hh).2.2 n hn k (hr n hn k hk)
    · intro h0
      refine hc ?_
      rw [Bool.or_eq_true, List.any_eq_true]
      exact Or.inr ⟨(n, k), hp, by rw [h0]; rfl⟩
  have hval : ∀ p ∈ wanted, o.files (timeName r.h p.1 p.2) = some (trajectory r.h p.1 p.2) := by
    intro p hp
    obtain ⟨a, ha⟩ := Option.ne_none_iff_exists'.1 (hthere p hp)
    rw [ha, hhon r.h p.1 p.2 a ha]
  have hsim : (false || wanted.any fun p => (o.files (timeName r.h p.1 p.2)).isNone) = false := by
    rw [Bool.false_or, List.any_eq_false]
    intro p hp
    rw [hval p hp]
    simp
  refine ⟨?_, ?_, ?_⟩
  · unfold Truthful
    rw [hshown]
    exact List.map_congr_left fun p hp => by rw [hval p hp]
  · show (if (false || wanted.any fun p => (o.files (timeName r.h p.1 p.2)).isNone) = true then _ else []) = []
    rw [hsim]
    rfl
  · show wanted.map (fun p => (p, (if (false || wanted.any fun p =>
        (o.files (timeName r.h p.1 p.2)).isNone) = true then _ else o.files) (timeName r.h p.1 p.2))) = _
    rw [hsim, hshown]
    rfl

/-- The cases of the screws read what they save. -/
theorem C100_screws (names : List String) (nSteps : ℕ) (hn : 0 < nSteps) (n : String) :
    (∀ k ∈ screwReads names nSteps n, k ∈ screwOutputs nSteps) ∧
    ∀ k, 0 < k → k < nSteps → k ∈ screwReads names nSteps n := by
  obtain ⟨m, rfl⟩ := Nat.exists_eq_succ_of_ne_zero hn.ne'
  have ht : (screwOutputs (m + 1)).tail = (List.range m).map Nat.succ := by
    unfold screwOutputs
    rw [List.range_succ_eq_map]
    rfl
  have hmem : ∀ k, k ∈ (screwOutputs (m + 1)).tail ↔ 0 < k ∧ k < m + 1 := by
    intro k
    rw [ht]
    simp only [List.mem_map, List.mem_range]
    constructor
    · rintro ⟨j, hj, rfl⟩; omega
    · rintro ⟨h1, h2⟩; exact ⟨k - 1, by omega, by omega⟩
  have hout : ∀ k, k ∈ screwOutputs (m + 1) ↔ k < m + 1 := fun k => List.mem_range
  unfold screwReads
  split_ifs
  · refine ⟨fun k hk => ?_, fun k h1 h2 => List.mem_cons_of_mem _ ((hmem k).2 ⟨h1, h2⟩)⟩
    rcases List.mem_cons.1 hk with rfl | hk
    · exact (hout _).2 hn
    · exact (hout k).2 ((hmem k).1 hk).2
  · exact ⟨fun k hk => (hout k).2 ((hmem k).1 hk).2, fun k h1 h2 => (hmem k).2 ⟨h1, h2⟩⟩

/-- A state whose time is smaller than that of its step, by however little, is saved under the step before: in an
empty directory the file of the step is not found after the simulation. -/
theorem C100_times_wrong (time : A → K) {dt e : K} (hdt : 0 < dt) (he : 0 < e) (he' : e ≤ dt) (h : ℕ)
    (name : String) (k : ℕ) (hk : 0 < k) (trajectory : String → ℕ → A)
    (ht : time (trajectory name k) = k * dt - e) (force : Bool) :
    (timesMain force time dt h [name] (fun _ => [k]) (fun _ => [k]) trajectory Files.empty).shown =
        [((name, k), none)] ∧
      (timesMain force time dt h [name] (fun _ => [k]) (fun _ => [k]) trajectory Files.empty).files
        (timeName h name ((k - 1 : ℕ) : ℤ)) = some (trajectory name k) := by
  have hs : stepOfTime (time (trajectory name k)) dt = ((k - 1 : ℕ) : ℤ) := by
    rw [ht, stepOfTime_early hdt k he he', Nat.cast_sub (by omega)]
    rfl
  have hne : timeName h name (k : ℤ) ≠ timeName h name ((k - 1 : ℕ) : ℤ) := by
    intro hc
    have := toString_cast_inj (timeName_inj hc).2.1
    omega
  constructor
  · simp [timesMain, saveStates, Files.empty, hs, Files.write, hne]
  · simp [timesMain, saveStates, Files.empty, hs, Files.write]

example : TimesRight (A := ℕ) (fun a => (a : ℚ) / 128) (fun _ => 1 / 128) (fun _ _ k => k) := by
  intro _ _ k
  constructor
  · push_cast; linarith
  · push_cast; linarith

/-- The times of the run of the screws, and a time too small. -/
example : (0 : ℚ) < 1 / 10 ∧ stepOfTime ((8 : ℕ) * (1 / 10 : ℚ) - 1 / 10 ^ 16) (1 / 10) = 7 := by
  refine ⟨by norm_num, ?_⟩
  rw [stepOfTime_early (by norm_num) 8 (by norm_num) (by norm_num)]
  rfl

end Times

end Conmech
