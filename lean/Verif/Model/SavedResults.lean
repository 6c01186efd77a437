import Mathlib.Algebra.Order.Floor.Defs
import Mathlib.Algebra.Order.Field.Basic
import Mathlib.Data.Nat.Log
/-
Model of the examples that keep their results in files: `examples/BartmanSzwarc_Ochal_Tarzia_2026.py`,
`examples/Makela_et_al_1998.py`, `examples/BartmanSzwarc_Bagirrov_Ochal_2025.py`,
`examples/BartmanSzwarc_Ochal_Sofonea_Tarzia_2025.py`, `examples/BOSK_2024.py`,
`examples/Jureczka_Ochal_Bartman_2023.py`, `examples/Bartman_Ochal_Sofonea_2024.py`.

A directory says for every name which result is pickled in the file of that name. A simulation is a
function of its parameters; what is drawn is the list of the loaded results with the parameters for which
they are drawn. Damaged files, plots and the removal of forces and setups before pickling are left out,
and the output directory exists and is the same in all runs.
-/
namespace Conmech.Saved

variable {A P : Type}

/-- The files of an output directory with the results pickled into them. -/
abbrev Files (A : Type) := String → Option A

/-- `with open(name, "wb+") as output: pickle.dump(a, output)`. -/
def Files.write (fs : Files A) (name : String) (a : A) : Files A := fun n => if n = name then some a else fs n

/-- A directory without files. -/
def Files.empty : Files A := fun _ => none

/-- What a run leaves and shows: the files, the parameters simulated, in order, and the results drawn, `none`
for a file that cannot be opened. -/
structure Outcome (A P : Type) where
  files : Files A
  simulated : List P
  shown : List (P × Option A)

section Temperature

/-- `state_path`, `examples/BartmanSzwarc_Ochal_Tarzia_2026.py:113-114`, and the name in `simulate`, line 483;
the parameters are given as they are printed. -/
def temperatureName (p : String × String) : String := "alpha_" ++ p.1 ++ "_ih_" ++ p.2

/-- `load_or_simulate` with `only_ensure=True`, lines 117-123, and `simulate`, lines 461-492; the outputs path
is not empty. -/
def ensure (force : Bool) (name : P → String) (sim : P → A) (fs : Files A) (p : P) : Outcome A P :=
  if force || (fs (name p)).isNone then ⟨fs.write (name p) (sim p), [p], []⟩ else ⟨fs, [], []⟩

/-- `load_or_simulate` with `only_ensure=False`, lines 117-125. -/
def loadOrSimulate (force : Bool) (name : P → String) (sim : P → A) (fs : Files A) (p : P) : Outcome A P :=
  let o := ensure force name sim fs p
  { o with shown := [(p, o.files (name p))] }

/-- A loop whose passes change the files. -/
def passes (pass : Files A → P → Outcome A P) : List P → Files A → Outcome A P
  | [], fs => ⟨fs, [], []⟩
  | p :: rest, fs =>
    let o := pass fs p
    let r := passes pass rest o.files
    ⟨r.files, o.simulated ++ r.simulated, o.shown ++ r.shown⟩

/-- `main`, lines 495-536: all pairs are ensured, then the drawings load the states of the pairs drawn. -/
def temperatureMain (force : Bool) (sim : String × String → A) (pairs drawn : List (String × String))
    (fs : Files A) : Outcome A (String × String) :=
  let o := passes (ensure force temperatureName sim) pairs fs
  let r := passes (loadOrSimulate force temperatureName sim) drawn o.files
  ⟨r.files, o.simulated ++ r.simulated, r.shown⟩

end Temperature

section Sweep

/-- `n / d` rounded to the nearest natural number, halves to even. -/
def roundHalfEven (n d : ℕ) : ℕ :=
  if 2 * (n % d) < d then n / d
  else if 2 * (n % d) = d then n / d + (n / d) % 2
  else n / d + 1

/-- The digits and the exponent of `f"{n:.2e}"` for a natural number: three digits, and the power of ten of the
first one. -/
def scientific (n : ℕ) : ℕ × ℕ :=
  if n = 0 then (0, 0)
  else
    let e := Nat.log 10 n
    let m := roundHalfEven (n * 100) (10 ^ e)
    if m = 1000 then (100, e + 1) else (m, e)

/-- `f"{n:.2e}"` for a natural number: the exponent has at least two digits. -/
def sci (n : ℕ) : String :=
  let (m, e) := scientific n
  toString (m / 100) ++ "." ++ toString (m / 10 % 10) ++ toString (m % 10) ++ "e+" ++
    (if e < 10 then "0" else "") ++ toString e

/-- `f"{PREFIX}_mtd_{m}_frc_{f:.2e}"`, `examples/Makela_et_al_1998.py:159, 200, 219`,
`examples/BartmanSzwarc_Bagirrov_Ochal_2025.py:221, 284, 304`, for forces in whole newtons. -/
def forceName (family : String) (p : String × ℕ) : String :=
  family ++ "_mtd_" ++ p.1 ++ "_frc_" ++ sci p.2

variable {M F D L : Type} [DecidableEq M] [DecidableEq F]

/-- The files of states and the file `f"{PREFIX}_losses"`: a loss for each method and force. -/
structure Directory (A L M F : Type) where
  files : Files A
  losses : Option (M → F → Option L)

/-- The variables of the loop: files of states, `losses`, `initial_displacement` and `mtd`. -/
structure Sweep (A D L M F : Type) where
  files : Files A
  losses : M → F → Option L
  start : Option D
  method : Option M

/-- One pass of the loop, `BartmanSzwarc_Bagirrov_Ochal_2025.py:245-291`. `warm` says which methods have "qsm"
in their names; with no such method it is the loop of `Makela_et_al_1998.py:177-207`. -/
def Sweep.pass (warm : M → Bool) (sim : M × F → Option D → A) (disp : A → D) (loss : A → L)
    (name : M × F → String) (s : Sweep A D L M F) (p : M × F) : Sweep A D L M F :=
  let start := if !warm p.1 || s.method ≠ some p.1 then none else s.start
  let a := sim p start
  { files := s.files.write (name p) a
    losses := fun m f => if m = p.1 ∧ f = p.2 then some (loss a) else s.losses m f
    start := some (disp a)
    method := if !warm p.1 || s.method ≠ some p.1 then some p.1 else s.method }

/-- `to_simulate`, `Makela_et_al_1998.py:152-164`, `BartmanSzwarc_Bagirrov_Ochal_2025.py:214-227`,
`BartmanSzwarc_Ochal_Sofonea_Tarzia_2025.py:113-124`. -/
def missing (force : Bool) (name : P → String) (ps : List P) (fs : Files A) : List P :=
  if force then ps else ps.filter fun p => (fs (name p)).isNone

/-- `[(m, f) for m in methods for f in forces]`. -/
def pairs (methods : List M) (forces : List F) : List (M × F) :=
  methods.flatMap fun m => forces.map fun f => (m, f)

/-- `main`, `Makela_et_al_1998.py:145-241`, `BartmanSzwarc_Bagirrov_Ochal_2025.py:207-328`: the directory it
leaves, the parameters simulated, and the states shown. -/
def sweepMain (force : Bool) (warm : M → Bool) (sim : M × F → Option D → A) (disp : A → D) (loss : A → L)
    (name : M × F → String) (methods : List M) (forces : List F) (d : Directory A L M F) :
    Directory A L M F × List (M × F) × List ((M × F) × Option A) :=
  let todo := missing force name (pairs methods forces) d.files
  let d' : Directory A L M F :=
    if todo = [] then d
    else
      let s := todo.foldl (Sweep.pass warm sim disp loss name) ⟨d.files, fun _ _ => none, none, none⟩
      ⟨s.files, some s.losses⟩
  (d', todo, (pairs methods forces).map fun p => (p, d'.files (name p)))

end Sweep

section Penetration

variable {I D : Type} [DecidableEq I]

/-- `igs[igs.index(ig) - 1]`: the index -1 is the last one. -/
def previous (igs : List I) (ig : I) : Option I :=
  if igs.idxOf ig = 0 then igs.getLast? else igs[igs.idxOf ig - 1]?

/-- The loop of `examples/BartmanSzwarc_Ochal_Sofonea_Tarzia_2025.py:144-175`; `none` is an exception. The
state loaded as the start of the next simulation takes the place of the state that has just been computed. -/
def penetrationLoop (name : I → String) (sim : I → Option D → A) (disp : A → D) (igs : List I) :
    List I → Files A → Option D → Option (Files A)
  | [], fs, _ => some fs
  | ig :: rest, fs, start =>
    let state := sim ig start
    match rest.head? with
    | none => penetrationLoop name sim disp igs rest (fs.write (name ig) state) start
    | some next =>
      match previous igs next with
      | none => none
      | some before =>
        if ig = before then penetrationLoop name sim disp igs rest (fs.write (name ig) state) none
        else
          match fs (name before) with
          | none => none
          | some loaded =>
            penetrationLoop name sim disp igs rest (fs.write (name ig) loaded) (some (disp loaded))

/-- The start of the first simulation, lines 136-142. -/
def penetrationStart (name : I → String) (disp : A → D) (igs todo : List I) (fs : Files A) :
    Option (Option D) :=
  if todo.head? = igs.head? then some none
  else
    match todo.head? with
    | none => some none
    | some first =>
      match previous igs first with
      | none => none
      | some before => (fs (name before)).map fun a => some (disp a)

/-- `main` up to the plots, lines 102-180: the files, the values simulated and the states shown; `none` is an
exception. -/
def penetrationMain (force : Bool) (name : I → String) (sim : I → Option D → A) (disp : A → D)
    (igs : List I) (fs : Files A) : Option (Outcome A I) :=
  let todo := missing force name igs fs
  match (match todo with
    | [] => some fs
    | _ => (penetrationStart name disp igs todo fs).bind (penetrationLoop name sim disp igs todo fs)) with
  | none => none
  | some fs' => some ⟨fs', todo, igs.map fun ig => (ig, fs' (name ig))⟩

/-- `f"{PREFIX}_ig_{ig}"`, line 118, for a value as it is printed. -/
def penetrationName (ig : String) : String := "BOST_ig_" ++ ig

end Penetration

section Wave

/-- `output_step`, `examples/BOSK_2024.py:65-70`; the products with 0.25, 0.5 and 0.75 are exact. -/
def waveSteps (steps : ℕ) : List ℕ := [steps / 4, steps / 2, 3 * steps / 4, steps]

/-- `f"{name}_step_{step}"`, `examples/BOSK_2024.py:78, 108, 112`. -/
def waveName (name : String) (step : ℕ) : String := name ++ "_step_" ++ toString step

/-- `for step, state in enumerate(states): state.save(...)`, lines 107-108, from the index `i` on. -/
def saveFrom (name : String) : ℕ → List A → Files A → Files A
  | _, [], fs => fs
  | i, a :: rest, fs => saveFrom name (i + 1) rest (fs.write (waveName name i) a)

/-- `runner` up to the plots, lines 63-112, with `continuing=None` as in all its calls. The simulation gives
the states of the time steps `output_step`, see C37. The first component are the states that are drawn, `none`
for a file that cannot be opened. -/
def waveRunner (force : Bool) (name : String) (steps : ℕ) (trajectory : ℕ → A) (fs : Files A) :
    List (Option A) × Files A × Bool :=
  if force || (waveSteps steps).any fun k => (fs (waveName name k)).isNone then
    let states := (waveSteps steps).map trajectory
    (states.map some, saveFrom name 0 states fs, true)
  else ((waveSteps steps).map fun k => fs (waveName name k), fs, false)

end Wave

section Times

variable {K : Type} [Field K] [LinearOrder K] [IsStrictOrderedRing K] [FloorRing K]

/-- `f"{name}_t_{step}_h_{h}"`, `examples/Jureczka_Ochal_Bartman_2023.py:132, 167, 187`,
`examples/Bartman_Ochal_Sofonea_2024.py:157, 190, 222`. -/
def timeName (h : ℕ) (name : String) (step : ℤ) : String :=
  name ++ "_t_" ++ toString step ++ "_h_" ++ toString h

/-- `int(state.time // setup.time_step)`. -/
def stepOfTime (time dt : K) : ℤ := ⌊time / dt⌋

/-- The files after the states of one simulation have been saved, `Jureczka_Ochal_Bartman_2023.py:165-172`,
`Bartman_Ochal_Sofonea_2024.py:184-201`. -/
def saveStates (time : A → K) (dt : K) (h : ℕ) (name : String) (states : List A) (fs : Files A) : Files A :=
  states.foldl (fun fs a => fs.write (timeName h name (stepOfTime (time a) dt)) a) fs

/-- `main` of both examples, `Jureczka_Ochal_Bartman_2023.py:94-188`, `Bartman_Ochal_Sofonea_2024.py:80-223`: unless all files to be read are there, all cases are simulated and the states of
their output steps are saved. The files of forces and penetrations of the second example are left out. -/
def timesMain (force : Bool) (time : A → K) (dt : K) (h : ℕ) (names : List String)
    (outputs reads : String → List ℕ) (trajectory : String → ℕ → A) (fs : Files A) :
    Outcome A (String × ℕ) :=
  let wanted := names.flatMap fun n => (reads n).map fun k => (n, k)
  let simulate := force || wanted.any fun p => (fs (timeName h p.1 p.2)).isNone
  let fs' :=
    if simulate then
      names.foldl (fun fs n => saveStates time dt h n ((outputs n).map (trajectory n)) fs) fs
    else fs
  ⟨fs', if simulate then names.flatMap fun n => (outputs n).map fun k => (n, k) else [],
    wanted.map fun p => (p, fs' (timeName h p.1 p.2))⟩

/-- `output_steps` of `Jureczka_Ochal_Bartman_2023.py:104`. -/
def screwOutputs (nSteps : ℕ) : List ℕ := List.range nSteps

/-- The steps read for a case, lines 127-130 and 182-185: the initial state for the first case only. -/
def screwReads (names : List String) (nSteps : ℕ) (name : String) : List ℕ :=
  if names.head? = some name then 0 :: (screwOutputs nSteps).tail else (screwOutputs nSteps).tail

end Times

end Conmech.Saved
