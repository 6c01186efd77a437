import Verif.Model.Config
/-
C56 display options, C68 output directories.
-/
namespace Conmech

section C56

/-- C56: a configuration that shows and saves is rejected. -/
theorem C56_rejected {c : Config} (h : c.shows = true ∧ c.save = true) (fs : FileSystem) :
    c.init fs = .error .valueError := by
  simp [Config.init, h]

/-- C56: every other configuration is accepted if there is no file in the way of its output directory:
the same configuration is returned, its output directory exists, and no other path is changed than the
output directory and those above. -/
theorem C56_accepted {c : Config} (h : ¬ (c.shows = true ∧ c.save = true)) {fs : FileSystem}
    (hfs : ∀ parts, parts <+: c.path.parts → fs ⟨c.path.absolute, parts⟩ ≠ some .file) :
    ∃ fs', c.init fs = .ok (fs', c) ∧ fs' c.path = some .directory ∧
      (∀ p, fs p ≠ none → fs' p = fs p) ∧
      ∀ p, ¬ (p.absolute = c.path.absolute ∧ p.parts <+: c.path.parts) → fs' p = fs p := by
  have h1 : (c.shows && c.save) = false := by
    cases hs : c.shows <;> cases hv : c.save <;> simp_all
  have h2 : ((List.range (c.path.parts.length + 1)).any fun k =>
      fs { c.path with parts := c.path.parts.take k } = some .file) = false := by
    rw [List.any_eq_false]
    intro k _
    simpa using hfs _ (List.take_prefix k _)
  refine ⟨fun p => if p.above c.path then some .directory else fs p, ?_, ?_, ?_, ?_⟩
  · simp only [Config.init, h1, mkdirs, h2]
    rfl
  · simp [FilePath.above]
  · intro p hp
    by_cases ha : p.above c.path
    · simp only [ha, if_true]
      simp only [FilePath.above, Bool.and_eq_true, decide_eq_true_eq, List.isPrefixOf_iff_prefix] at ha
      have := hfs p.parts ha.2
      rw [← ha.1] at this
      match hq : fs p with
      | none => exact absurd hq hp
      | some .directory => rfl
      | some .file => exact absurd hq this
    · simp [ha]
  · intro p hp
    have : ¬ p.above c.path := by
      simpa only [FilePath.above, Bool.and_eq_true, decide_eq_true_eq, List.isPrefixOf_iff_prefix]
        using hp
    simp [this]

/-- C56: what a user gets who leaves options out: a configuration shows unless told not to and saves only
if told to, so that saving without an explicit `show=False` is rejected. -/
theorem C56_defaults (loaded now : ℕ) (a : ConfigArgs) (fs : FileSystem) :
    (a.save ≠ some true → ¬ ((Config.new loaded now a).shows = true ∧ (Config.new loaded now a).save = true)) ∧
    (a.save = some true → a.shows ≠ some false → (Config.new loaded now a).init fs = .error .valueError) ∧
    (a.shows = some false → ¬ ((Config.new loaded now a).shows = true ∧ (Config.new loaded now a).save = true)) := by
  refine ⟨fun h => ?_, fun h h' => C56_rejected ?_ fs, fun h => ?_⟩
  · simp only [Config.new]
    cases hs : a.save with
    | none => simp
    | some b => cases b <;> simp_all
  · simp only [Config.new]
    cases hs : a.shows with
    | none => simp [h]
    | some b => cases b <;> simp_all
  · simp [Config.new, h]

/-- Nothing happens to the file system before the check: the check does not depend on it, and the
default configuration passes it in an empty file system. -/
example : ¬ ((Config.new 7 8 {}).shows = true ∧ (Config.new 7 8 {}).save = true) ∧
    (Config.new 7 8 {}).path = ⟨false, ["output".toList, "7".toList]⟩ := by decide +kernel

example : (Config.new 7 8 { save := some true }).shows = true ∧
    (Config.new 7 8 { save := some true }).save = true := by decide

end C56

section C68

theorem splitSlash_plain : ∀ {s : List Char}, '/' ∉ s → splitSlash s = [s]
  | [], _ => rfl
  | c :: rest, h => by
    have hc : c ≠ '/' := fun h' => h (by simp [h'])
    have hr : '/' ∉ rest := fun h' => h (by simp [h'])
    simp [splitSlash, hc, splitSlash_plain hr]

/-- A name is one component. -/
theorem ofString_plain {s : List Char} (h : '/' ∉ s) (h0 : s ≠ []) (h1 : s ≠ ['.']) :
    FilePath.ofString s = ⟨false, [s]⟩ := by
  simp only [FilePath.ofString, splitSlash_plain h]
  have : ¬ s.head? = some '/' := by
    intro h'
    exact h (List.mem_of_mem_head? (by rw [h']; rfl))
  simp [this, h0, h1]

theorem digits_plain (n : ℕ) : FilePath.ofString (Nat.toDigits 10 n) = ⟨false, [Nat.toDigits 10 n]⟩ := by
  have hd : ∀ c ∈ Nat.toDigits 10 n, c.isDigit = true := fun c hc =>
    Nat.isDigit_of_mem_toDigits (by decide) (by decide) hc
  apply ofString_plain
  · intro h
    exact absurd (hd _ h) (by decide)
  · exact Nat.toDigits_ne_nil
  · intro h
    exact absurd (hd '.' (by rw [h]; simp)) (by decide)

theorem digits_inj {m n : ℕ} (h : Nat.toDigits 10 m = Nat.toDigits 10 n) : m = n := by
  rw [← Nat.ofDigitChars_ten_toDigits (n := m), h, Nat.ofDigitChars_ten_toDigits]

/-- C68: configurations with the same outputs path have different directories if their time stamps
differ and they have no output directory. Missing for the full property: the time stamps of
configurations made at different times do not differ, see `C68_shared_wrong`. -/
theorem C68_timestamps_partial {c d : Config} (hp : c.outputsPath = d.outputsPath)
    (hc : c.outputDir = none ∨ c.outputDir = some []) (hd : d.outputDir = none ∨ d.outputDir = some [])
    (h : c.timestamp ≠ d.timestamp) : c.path ≠ d.path := by
  have key : ∀ e : Config, e.outputDir = none ∨ e.outputDir = some [] →
      e.directory = Nat.toDigits 10 e.timestamp := by
    rintro e (he | he) <;> simp [Config.directory, he]
  simp only [Config.path, key c hc, key d hd, digits_plain, hp, FilePath.join]
  intro he
  simp only [Bool.false_eq_true, if_false, FilePath.mk.injEq, List.append_cancel_left_eq,
    List.cons.injEq, and_true, true_and] at he
  exact h (digits_inj he)

/-- C68: a configuration whose output directory is a name writes there, and different names are
different directories. -/
theorem C68_named {c d : Config} (hp : c.outputsPath = d.outputsPath) {u v : List Char}
    (hc : c.outputDir = some u) (hd : d.outputDir = some v) (hu : '/' ∉ u) (hv : '/' ∉ v)
    (hu0 : u ≠ []) (hv0 : v ≠ []) (hu1 : u ≠ ['.']) (hv1 : v ≠ ['.']) (h : u ≠ v) :
    c.path ≠ d.path ∧ ∃ above, c.path.parts = above ++ [u] ∧ d.path.parts = above ++ [v] := by
  simp only [Config.path, Config.directory, hc, hd, hu0, hv0, if_false, ofString_plain hu hu0 hu1,
    ofString_plain hv hv0 hv1, hp, FilePath.join]
  refine ⟨?_, _, rfl, rfl⟩
  intro he
  simp only [Bool.false_eq_true, if_false, FilePath.mk.injEq, List.append_cancel_left_eq,
    List.cons.injEq, and_true, true_and] at he
  exact h he

/-- C68: in processes started at different times configurations have different directories. Missing for
the full property: within one process they have the same, see `C68_shared_wrong`. -/
theorem C68_processes_partial {loaded loaded' now now' : ℕ} (h : loaded ≠ loaded') {a b : ConfigArgs}
    (ha : a.outputDir = none) (hb : b.outputDir = none) (ha' : a.timestamp = none)
    (hb' : b.timestamp = none) (hp : a.outputsPath = b.outputsPath) :
    (Config.new loaded now a).path ≠ (Config.new loaded' now' b).path :=
  C68_timestamps_partial (by simp [Config.new, hp]) (.inl ha) (.inl hb)
    (by simpa [Config.new, ha', hb'] using h)

/-- C68: all configurations of a process without output directory and time stamp have the same
directory, whenever they are made. -/
theorem C68_shared_wrong (loaded now now' : ℕ) {a b : ConfigArgs}
    (ha : a.outputDir = none) (hb : b.outputDir = none) (ha' : a.timestamp = none)
    (hb' : b.timestamp = none) (hp : a.outputsPath = b.outputsPath) :
    (Config.new loaded now a).path = (Config.new loaded now' b).path := by
  simp [Config.path, Config.directory, Config.new, ha, hb, ha', hb', hp]

/-- Two configurations of one process and a configuration of another. -/
example : (Config.new 1700 1800 {}).path = (Config.new 1700 1900 {}).path ∧
    (Config.new 1700 1800 {}).path = ⟨false, ["output".toList, "1700".toList]⟩ ∧
    (Config.new 1750 1800 {}).path = ⟨false, ["output".toList, "1750".toList]⟩ := by decide +kernel

example : '/' ∉ "first".toList ∧ "first".toList ≠ ['.'] ∧ "first".toList ≠ "second".toList := by
  decide +kernel

/-- An absolute output directory replaces the outputs path. -/
example : (Config.new 7 8 { outputDir := some "/tmp/a/./b".toList }).path =
    ⟨true, ["tmp".toList, "a".toList, "b".toList]⟩ := by decide +kernel

end C68

end Conmech
