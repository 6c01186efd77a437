import Mathlib.Analysis.SpecialFunctions.Log.Basic
import Verif.Model.Manufactured
/-
Model of the table and the plots of convergence, `draw_convergence_plots` in
`examples/BartmanSzwarc_Ochal_Tarzia_2026.py:295-458`. Numbers are real and `none` is `nan`; a rate that is
printed as `--` is `none`. Not modelled: the rounding of the printed numbers and the drawing.
-/
namespace Conmech

/-- The exceptions that are caught in line 447, where the table is replaced by a message: `max` of an
empty list, the failed assertion of line 370, a mesh size of zero, an index out of range. -/
inductive TableError
  | empty
  | noReference
  | zeroDivision
  | index
  deriving DecidableEq

/-- One element of the list of `compute_rates`,
`examples/BartmanSzwarc_Ochal_Tarzia_2026.py:404-411`; comparisons with `nan` are false. -/
noncomputable def rateBetween (ePrev eCurr : Option ℝ) (hPrev hCurr : ℝ) : Option ℝ :=
  match ePrev, eCurr with
  | some ePrev, some eCurr =>
    if 0 < ePrev ∧ 0 < eCurr then some (Real.log (ePrev / eCurr) / Real.log (hPrev / hCurr)) else none
  | _, _ => none

/-- `compute_rates`, `examples/BartmanSzwarc_Ochal_Tarzia_2026.py:402-412`. -/
noncomputable def computeRates (errs : List (Option ℝ)) (hs : List ℝ) :
    Except TableError (List (Option ℝ)) := do
  let rates ← (List.range' 1 (errs.length - 1)).mapM fun i =>
    match errs[i - 1]?, errs[i]?, hs[i - 1]?, hs[i]? with
    | some ePrev, some eCurr, some hPrev, some hCurr => .ok (rateBetween ePrev eCurr hPrev hCurr)
    | _, _, _, _ => .error .index
  return none :: rates

/-- One printed row, `examples/BartmanSzwarc_Ochal_Tarzia_2026.py:428-437`. -/
structure TableRow where
  ih : ℕ
  errorInf : Option ℝ
  rateInf : Option ℝ
  errorAlpha : Option ℝ
  rateAlpha : Option ℝ

/-- `zip`, line 428: as long as the shortest list. -/
def tableRows : List ℕ → List (Option ℝ) → List (Option ℝ) → List (Option ℝ) → List (Option ℝ) →
    List TableRow
  | ih :: ihs, e :: es, r :: rs, a :: as, q :: qs => ⟨ih, e, r, a, q⟩ :: tableRows ihs es rs as qs
  | _, _, _, _, _ => []

/-- The table, `examples/BartmanSzwarc_Ochal_Tarzia_2026.py:367-437`. `load` is `load_or_simulate`, its
first argument is `none` for `np.inf`; `error reference state` is `_relative_temperature_error`; `alpha` is
`alpha_comp`. -/
noncomputable def convergenceTable {S : Type} (error : S → S → ℝ) (load : Option ℝ → ℕ → Option S)
    (alpha : ℝ) (ihs : List ℕ) : Except TableError (List TableRow) := do
  let refIh ← match ihs.max? with
    | some ih => Except.ok ih
    | none => .error .empty
  let reference ← match load none refIh with
    | some s => Except.ok s
    | none => .error .noReference
  if 0 ∈ ihs then throw .zeroDivision
  let hs : List ℝ := ihs.map fun ih : ℕ => 1 / (ih : ℝ)
  let errorsInf := ihs.map fun ih => (load none ih).map (error reference)
  let errorsAlpha := ihs.map fun ih => (load (some alpha) ih).map (error reference)
  let ratesInf ← computeRates errorsInf hs
  let ratesAlpha ← computeRates errorsAlpha hs
  return tableRows ihs errorsInf ratesInf errorsAlpha ratesAlpha

/-- The heights of the points of one convergence plot, lines 331-350; `none` if the assertions of lines
333 and 341 fail or the sequence is empty. -/
noncomputable def convergencePoints {S : Type} (error : S → S → ℝ) (load : Option ℝ → ℕ → Option S)
    (sequence : List (Option ℝ × ℕ)) : Option (List ℝ) := do
  let last ← sequence.getLast?
  let reference ← load last.1 last.2
  let errors ← sequence.dropLast.mapM fun p => (load p.1 p.2).map (error reference)
  return errors.map fun e => max e (1 / 10 ^ 16)

end Conmech
