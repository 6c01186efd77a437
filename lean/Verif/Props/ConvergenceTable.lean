import Verif.Model.ConvergenceTable
import Verif.Props.Manufactured
import Mathlib.Analysis.SpecialFunctions.Pow.Real
/-!
C119: the table of errors and orders of convergence.
-/
namespace Conmech
open Spec

/-- Between two meshes of sizes `h` and `h'` the errors `e` and `e'` are proportional to the power `q` of
the size. -/
def Spec.IsOrder (e e' h h' q : ℝ) : Prop := e * h' ^ q = e' * h ^ q

/-- C119: the printed rate is the only power of the mesh size that the two errors are proportional to. -/
theorem C119_rate {e e' h h' : ℝ} (he : 0 < e) (he' : 0 < e') (hh : 0 < h) (hh' : 0 < h') (hne : h ≠ h')
    (q : ℝ) : rateBetween (some e) (some e') h h' = some q ↔ Spec.IsOrder e e' h h' q := by
  have hlog : Real.log h - Real.log h' ≠ 0 := by
    intro hl
    exact hne (Real.log_injOn_pos hh hh' (by linarith))
  have hp := Real.rpow_pos_of_pos hh q
  have hp' := Real.rpow_pos_of_pos hh' q
  simp only [rateBetween, he, he', and_self, if_true, Option.some.injEq, Spec.IsOrder]
  rw [Real.log_div he.ne' he'.ne', Real.log_div hh.ne' hh'.ne', div_eq_iff hlog]
  constructor
  · intro hq
    refine Real.log_injOn_pos (Set.mem_Ioi.2 (mul_pos he hp')) (Set.mem_Ioi.2 (mul_pos he' hp)) ?_
    rw [Real.log_mul he.ne' hp'.ne', Real.log_mul he'.ne' hp.ne', Real.log_rpow hh', Real.log_rpow hh]
    linarith
  · intro hq
    have := congrArg Real.log hq
    rw [Real.log_mul he.ne' hp'.ne', Real.log_mul he'.ne' hp.ne', Real.log_rpow hh', Real.log_rpow hh] at this
    linarith

example : rateBetween (some 8) (some 2) (1 / 4) (1 / 8) = some 2 := by
  rw [C119_rate (by norm_num) (by norm_num) (by norm_num) (by norm_num) (by norm_num)]
  rw [Spec.IsOrder, show (2 : ℝ) = ((2 : ℕ) : ℝ) by norm_num, Real.rpow_natCast, Real.rpow_natCast]
  norm_num

theorem mapM_ok {α β ε : Type} (l : List α) (f : α → Except ε β) (g : α → β)
    (h : ∀ x ∈ l, f x = .ok (g x)) : l.mapM f = .ok (l.map g) := by
  induction l with
  | nil => rfl
  | cons a l ih =>
    rw [List.mapM_cons, h a (by simp), ih fun x hx => h x (by simp [hx])]
    rfl

theorem computeRates_get {errs : List (Option ℝ)} {hs : List ℝ} (hl : hs.length = errs.length) :
    ∃ rates, computeRates errs hs = .ok rates ∧ (errs ≠ [] → rates.length = errs.length) ∧
      rates[0]? = some none ∧
      ∀ i e e' h h', errs[i]? = some e → errs[i + 1]? = some e' → hs[i]? = some h → hs[i + 1]? = some h' →
        rates[i + 1]? = some (rateBetween e e' h h') := by
  refine ⟨none :: (List.range' 1 (errs.length - 1)).map fun i =>
    rateBetween (errs.getD (i - 1) none) (errs.getD i none) (hs.getD (i - 1) 0) (hs.getD i 0), ?_, ?_, ?_, ?_⟩
  · unfold computeRates
    rw [mapM_ok _ _ (fun i =>
      rateBetween (errs.getD (i - 1) none) (errs.getD i none) (hs.getD (i - 1) 0) (hs.getD i 0))]
    · rfl
    · intro i hi
      rw [List.mem_range'_1] at hi
      have h1 : i - 1 < errs.length := by omega
      have h2 : i < errs.length := by omega
      simp [List.getElem?_eq_getElem h1, List.getElem?_eq_getElem h2,
        List.getElem?_eq_getElem (hl ▸ h1), List.getElem?_eq_getElem (hl ▸ h2)]
  · intro hne
    have := List.length_pos_of_ne_nil hne
    simp only [List.length_cons, List.length_map, List.length_range']
    omega
  · rfl
  · intro i e e' h h' h1 h2 h3 h4
    have hi : i + 1 < errs.length := by
      by_contra hc
      rw [List.getElem?_eq_none (by omega)] at h2
      simp at h2
    rw [List.getElem?_cons_succ, List.getElem?_map, List.getElem?_range' (by omega)]
    simp [List.getD_eq_getElem?_getD, Nat.add_comm 1 i, h1, h2, h3, h4]

/-- What a column of the table shows: the errors of the states, `--` in the first row, and in every
further row the rate from the row above. -/
structure Spec.IsColumn (ihs : List ℕ) (errors : ℕ → Option ℝ) (column rates : List (Option ℝ)) : Prop where
  length : column.length = ihs.length
  lengthRates : rates.length = ihs.length
  error : ∀ i < ihs.length, column[i]? = some (errors (ihs.getD i 0))
  first : rates[0]? = some none
  rate : ∀ i, i + 1 < ihs.length → ∀ e e', errors (ihs.getD i 0) = some e →
    errors (ihs.getD (i + 1) 0) = some e' → 0 < e → 0 < e' → ihs.getD i 0 ≠ ihs.getD (i + 1) 0 →
    ∃ q, rates[i + 1]? = some (some q) ∧
      Spec.IsOrder e e' (1 / (ihs.getD i 0 : ℝ)) (1 / (ihs.getD (i + 1) 0 : ℝ)) q
  none : ∀ i, i + 1 < ihs.length →
    ((¬ ∃ e, errors (ihs.getD i 0) = some e ∧ 0 < e) ∨
      ¬ ∃ e, errors (ihs.getD (i + 1) 0) = some e ∧ 0 < e) → rates[i + 1]? = some Option.none

theorem isColumn_of {ihs : List ℕ} (h0 : 0 ∉ ihs) (hne : ihs ≠ []) (errors : ℕ → Option ℝ) :
    ∃ rates, computeRates (ihs.map errors) (ihs.map fun ih : ℕ => 1 / (ih : ℝ)) = .ok rates ∧
      Spec.IsColumn ihs errors (ihs.map errors) rates := by
  obtain ⟨rates, hr, hlen, hfirst, hget⟩ := computeRates_get (errs := ihs.map errors)
    (hs := ihs.map fun ih : ℕ => 1 / (ih : ℝ)) (by simp)
  have key : ∀ i, i + 1 < ihs.length → rates[i + 1]? = some (rateBetween (errors (ihs.getD i 0))
      (errors (ihs.getD (i + 1) 0)) (1 / (ihs.getD i 0 : ℝ)) (1 / (ihs.getD (i + 1) 0 : ℝ))) := by
    intro i hi
    have h1 : i < ihs.length := by omega
    refine hget i _ _ _ _ ?_ ?_ ?_ ?_ <;>
      simp [List.getD_eq_getElem?_getD, List.getElem?_eq_getElem h1, List.getElem?_eq_getElem hi]
  have hpos : ∀ i < ihs.length, 0 < (1 / (ihs.getD i 0 : ℝ)) := by
    intro i hi
    have : ihs.getD i 0 ∈ ihs := by
      rw [List.getD_eq_getElem?_getD, List.getElem?_eq_getElem hi]
      exact List.getElem_mem hi
    have : ihs.getD i 0 ≠ 0 := fun h => h0 (h ▸ this)
    positivity
  refine ⟨rates, hr, by simp, ?_, ?_, hfirst, ?_, ?_⟩
  · simpa using hlen (by simpa using hne)
  · intro i hi
    simp [List.getD_eq_getElem?_getD, List.getElem?_eq_getElem hi]
  · intro i hi e e' he he' hp hp' hd
    have hh : (1 / (ihs.getD i 0 : ℝ)) ≠ 1 / (ihs.getD (i + 1) 0 : ℝ) := by
      intro h
      rw [one_div, one_div, inv_inj] at h
      exact hd (by exact_mod_cast h)
    refine ⟨Real.log (e / e') / Real.log ((1 / (ihs.getD i 0 : ℝ)) / (1 / (ihs.getD (i + 1) 0 : ℝ))), ?_, ?_⟩
    · rw [key i hi, he, he']
      simp only [rateBetween, hp, hp', and_self, if_true]
    · rw [← C119_rate hp hp' (hpos i (by omega)) (hpos (i + 1) hi) hh]
      simp only [rateBetween, hp, hp', and_self, if_true]
  · intro i hi hno
    rw [key i hi]
    congr 1
    unfold rateBetween
    split
    · next e e' he he' =>
      rw [if_neg]
      rintro ⟨hp, hp'⟩
      rcases hno with hno | hno
      · exact hno ⟨e, he, hp⟩
      · exact hno ⟨e', he', hp'⟩
    · rfl

/-- C119: the table is printed whenever the list of meshes is not empty and contains no zero and there is a
state for the finest one. It has one row for every mesh, in the given order; one column shows the distances
of the states for `inf`, the other those of the states for `alpha`, both from the state for `inf` on the
finest mesh; a rate is the power of the mesh size from the row above, `--` in the first row and where one of
the errors is zero or unknown. -/
theorem C119_table {S : Type} (error : S → S → ℝ) (load : Option ℝ → ℕ → Option S) (alpha : ℝ)
    (ihs : List ℕ) (hne : ihs ≠ []) (h0 : 0 ∉ ihs) {finest : ℕ} (hf : finest ∈ ihs)
    (hmax : ∀ ih ∈ ihs, ih ≤ finest) {reference : S} (hr : load none finest = some reference) :
    ∃ rows, convergenceTable error load alpha ihs = .ok rows ∧
      rows.map TableRow.ih = ihs ∧
      Spec.IsColumn ihs (fun ih => (load none ih).map (error reference)) (rows.map TableRow.errorInf)
        (rows.map TableRow.rateInf) ∧
      Spec.IsColumn ihs (fun ih => (load (some alpha) ih).map (error reference))
        (rows.map TableRow.errorAlpha) (rows.map TableRow.rateAlpha) := by
  have hm : ihs.max? = some finest := by
    rw [List.max?_eq_some_iff]
    exact ⟨hf, hmax⟩
  obtain ⟨r1, hr1, c1⟩ := isColumn_of h0 hne fun ih => (load none ih).map (error reference)
  obtain ⟨r2, hr2, c2⟩ := isColumn_of h0 hne fun ih => (load (some alpha) ih).map (error reference)
  refine ⟨tableRows ihs (ihs.map fun ih => (load none ih).map (error reference)) r1
    (ihs.map fun ih => (load (some alpha) ih).map (error reference)) r2, ?_, ?_⟩
  · unfold convergenceTable
    simp only [hm, hr, h0, hr1, hr2, bind, pure, Except.bind, Except.pure, if_false]
  · have proj : ∀ (n : ℕ) (l1 : List ℕ) (l2 l3 l4 l5 : List (Option ℝ)), l1.length = n →
        l2.length = n → l3.length = n → l4.length = n → l5.length = n →
        (tableRows l1 l2 l3 l4 l5).map TableRow.ih = l1 ∧
        (tableRows l1 l2 l3 l4 l5).map TableRow.errorInf = l2 ∧
        (tableRows l1 l2 l3 l4 l5).map TableRow.rateInf = l3 ∧
        (tableRows l1 l2 l3 l4 l5).map TableRow.errorAlpha = l4 ∧
        (tableRows l1 l2 l3 l4 l5).map TableRow.rateAlpha = l5 := by
      intro n
      induction n with
      | zero =>
        intro l1 l2 l3 l4 l5 h1 h2 h3 h4 h5
        simp only [List.length_eq_zero_iff] at h1 h2 h3 h4 h5
        subst h1 h2 h3 h4 h5
        simp [tableRows]
      | succ n ih =>
        intro l1 l2 l3 l4 l5 h1 h2 h3 h4 h5
        match l1, l2, l3, l4, l5, h1, h2, h3, h4, h5 with
        | a :: l1, b :: l2, c :: l3, d :: l4, e :: l5, h1, h2, h3, h4, h5 =>
          simp only [List.length_cons, add_left_inj] at h1 h2 h3 h4 h5
          obtain ⟨p1, p2, p3, p4, p5⟩ := ih l1 l2 l3 l4 l5 h1 h2 h3 h4 h5
          simp [tableRows, p1, p2, p3, p4, p5]
    obtain ⟨p1, p2, p3, p4, p5⟩ := proj ihs.length ihs _ r1 _ r2 rfl c1.length c1.lengthRates c2.length
      c2.lengthRates
    rw [p1, p2, p3, p4, p5]
    exact ⟨rfl, c1, c2⟩

/-- The table of the meshes 4, 8, 16 with states that differ by their numbers. -/
example : ∃ rows, convergenceTable (fun a b : ℝ => |a - b|)
    (fun alpha ih => some (match alpha with | none => 1 / (ih : ℝ) | some _ => 2)) 1000000 [4, 8, 16] =
      .ok rows ∧ rows.map TableRow.ih = [4, 8, 16] := by
  obtain ⟨rows, h, h', -⟩ := C119_table (fun a b : ℝ => |a - b|)
    (fun alpha ih => some (match alpha with | none => 1 / (ih : ℝ) | some _ => 2)) 1000000 [4, 8, 16] (by simp)
    (by simp) (finest := 16) (by simp) (by simp) rfl
  exact ⟨rows, h, h'⟩

/-- C119: in the row of the finest mesh the first error is zero and there is no rate, and there is none in
the next row. -/
theorem C119_finest {S : Type} (error : S → S → ℝ) (load : Option ℝ → ℕ → Option S) {ihs : List ℕ}
    {finest : ℕ} {reference : S} (hr : load none finest = some reference) (hself : error reference reference = 0)
    {column rates : List (Option ℝ)}
    (hc : Spec.IsColumn ihs (fun ih => (load none ih).map (error reference)) column rates) {i : ℕ}
    (hi : i < ihs.length) (hf : ihs.getD i 0 = finest) :
    column[i]? = some (some 0) ∧ rates[i]? = some none ∧
      (i + 1 < ihs.length → rates[i + 1]? = some none) := by
  have hz : ∀ j, ihs.getD j 0 = finest → ¬ ∃ e, (load none (ihs.getD j 0)).map (error reference) = some e ∧ 0 < e := by
    rintro j hj ⟨e, he, hp⟩
    rw [hj, hr, Option.map_some, hself, Option.some.injEq] at he
    linarith
  refine ⟨?_, ?_, fun h => hc.none i h (Or.inl (hz i hf))⟩
  · rw [hc.error i hi, hf, hr, Option.map_some, hself]
  · cases i with
    | zero => exact hc.first
    | succ i => exact hc.none i hi (Or.inr (hz _ hf))

/-- The distance of a temperature from itself, if it is interpolated without error. -/
theorem C119_self (elements : List (List ℕ)) (nodes : ℕ → ℕ → ℝ) (t : ℕ → ℝ) :
    temperatureError Real.sqrt elements nodes t t = 0 := by
  have : ∀ (l : List (List ℕ)) (a : ℝ), l.foldl (fun l2 e => l2 + triangleArea nodes e / 12 *
      (2 * (0 * 0 + 0 * 0 + 0 * 0) + 2 * (0 * 0 + 0 * 0 + 0 * 0))) a = a := by
    intro l
    induction l with
    | nil => intro a; rfl
    | cons e l ih => intro a; rw [List.foldl_cons, ih]; ring
  simp only [temperatureError, sub_self]
  rw [this]
  simp

theorem rateBetween_scaled (c : ℝ) (hc : 0 < c) (e e' : Option ℝ) (h h' : ℝ) :
    rateBetween (e.map (c * ·)) (e'.map (c * ·)) h h' = rateBetween e e' h h' := by
  cases e with
  | none => rfl
  | some e =>
    cases e' with
    | none => rfl
    | some e' =>
      simp only [Option.map_some, rateBetween, mul_pos_iff_of_pos_left hc]
      rw [mul_div_mul_left _ _ hc.ne']

/-- C119: the rates are the same for errors that are all multiplied by the same number, thus for relative
and absolute errors. -/
theorem C119_scaled (c : ℝ) (hc : 0 < c) (errs : List (Option ℝ)) (hs : List ℝ) :
    computeRates (errs.map (Option.map (c * ·))) hs = computeRates errs hs := by
  unfold computeRates
  rw [List.length_map]
  congr 1
  congr 1
  funext i
  simp only [List.getElem?_map]
  cases errs[i - 1]? with
  | none => rfl
  | some e =>
    cases errs[i]? with
    | none => rfl
    | some e' =>
      cases hs[i - 1]? with
      | none => rfl
      | some h =>
        cases hs[i]? with
        | none => rfl
        | some h' =>
          simp only [Option.map_some]
          rw [rateBetween_scaled c hc]

/-- C119: if the errors are between two multiples of the power `q` of the mesh size, the printed rate differs
from `q` by at most the logarithm of the quotient of the multiples, divided by that of the mesh sizes. It is
`q` if the errors are proportional to the power. -/
theorem C119_order {e e' h h' q c C : ℝ} (hh' : 0 < h') (hh : h' < h) (hc : 0 < c)
    (h1 : c * h ^ q ≤ e) (h2 : e ≤ C * h ^ q) (h3 : c * h' ^ q ≤ e') (h4 : e' ≤ C * h' ^ q) :
    ∃ r, rateBetween (some e) (some e') h h' = some r ∧
      |r - q| ≤ Real.log (C / c) / Real.log (h / h') := by
  have hpos : 0 < h := hh'.trans hh
  have hp := Real.rpow_pos_of_pos hpos q
  have hp' := Real.rpow_pos_of_pos hh' q
  have he : 0 < e := lt_of_lt_of_le (by positivity) h1
  have he' : 0 < e' := lt_of_lt_of_le (by positivity) h3
  have hC : 0 < C := by
    by_contra hn
    have : C * h ^ q ≤ 0 := mul_nonpos_of_nonpos_of_nonneg (not_lt.1 hn) hp.le
    linarith
  have hd : 0 < Real.log (h / h') := Real.log_pos (by rwa [one_lt_div hh'])
  refine ⟨Real.log (e / e') / Real.log (h / h'), by simp only [rateBetween, he, he', and_self, if_true], ?_⟩
  have e1 : Real.log (e / e') / Real.log (h / h') - q =
      (Real.log (e / e') - q * Real.log (h / h')) / Real.log (h / h') := by
    field_simp
  rw [e1, abs_div, abs_of_pos hd]
  refine div_le_div_of_nonneg_right ?_ hd.le
  have l1 := Real.log_le_log (by positivity) h1
  have l2 := Real.log_le_log he h2
  have l3 := Real.log_le_log (by positivity) h3
  have l4 := Real.log_le_log he' h4
  rw [Real.log_mul hc.ne' hp.ne', Real.log_rpow hpos] at l1
  rw [Real.log_mul hC.ne' hp.ne', Real.log_rpow hpos] at l2
  rw [Real.log_mul hc.ne' hp'.ne', Real.log_rpow hh'] at l3
  rw [Real.log_mul hC.ne' hp'.ne', Real.log_rpow hh'] at l4
  rw [Real.log_div he.ne' he'.ne', Real.log_div hpos.ne' hh'.ne', Real.log_div hC.ne' hc.ne', abs_le]
  constructor <;> linarith

/-- C119: the rates of all rows together give the error of the last row from that of the first. -/
theorem C119_total (e h q : ℕ → ℝ) (he : ∀ i, 0 < e i) (hh : ∀ i, 0 < h i) (hne : ∀ i, h i ≠ h (i + 1))
    (n : ℕ) (hq : ∀ i < n, rateBetween (some (e i)) (some (e (i + 1))) (h i) (h (i + 1)) = some (q i)) :
    e n = e 0 * ∏ i ∈ Finset.range n, (h (i + 1) / h i) ^ q i := by
  induction n with
  | zero => simp
  | succ n ih =>
    have := (C119_rate (he n) (he (n + 1)) (hh n) (hh (n + 1)) (hne n) (q n)).1 (hq n (Nat.lt_succ_self n))
    rw [Finset.prod_range_succ, ← mul_assoc, ← ih fun i hi => hq i (by omega),
      Real.div_rpow (hh _).le (hh _).le, ← mul_div_assoc, this,
      mul_div_assoc, div_self (Real.rpow_pos_of_pos (hh n) _).ne', mul_one]

/-- C119: if the temperatures approach the exact one like the power `q` of the mesh size, the rates that are
printed are larger than `q`, since the errors are measured from the solution on the finest mesh, of size `r`;
the difference vanishes with `r / h'`. -/
theorem C119_reference {elements : List (List ℕ)} {N : ℕ} (hv : ValidElements 2 N elements)
    {nodes : ℕ → ℕ → ℝ} (hn : Nondegenerate2 elements nodes) (exact w : ℕ → ℝ) {h h' r q : ℝ}
    (hr : 0 < r) (hh' : r < h') (hh : h' < h) (hq : 0 < q)
    (hw : 0 < temperatureError Real.sqrt elements nodes (fun _ => 0) w) :
    ∃ rate, rateBetween
        (some (temperatureError Real.sqrt elements nodes (fun p => exact p + r ^ q * w p)
          fun p => exact p + h ^ q * w p))
        (some (temperatureError Real.sqrt elements nodes (fun p => exact p + r ^ q * w p)
          fun p => exact p + h' ^ q * w p)) h h' = some rate ∧
      q < rate ∧ rate ≤ q - Real.log (1 - (r / h') ^ q) / Real.log (h / h') := by
  have hpr := Real.rpow_pos_of_pos hr q
  have h1 : r ^ q < h' ^ q := Real.rpow_lt_rpow hr.le hh' hq
  have h2 : h' ^ q < h ^ q := Real.rpow_lt_rpow (hr.trans hh').le hh hq
  have key : ∀ s : ℝ, r ^ q ≤ s → temperatureError Real.sqrt elements nodes (fun p => exact p + r ^ q * w p)
      (fun p => exact p + s * w p) = (s - r ^ q) * temperatureError Real.sqrt elements nodes (fun _ => 0) w := by
    intro s hs
    rw [← C97_relative_wrong hv hn _ _ _ (sub_nonneg.2 hs)]
    have hd : ∀ p, exact p + r ^ q * w p - (exact p + s * w p) = (s - r ^ q) * 0 - (s - r ^ q) * w p := by
      intro p; ring
    simp only [temperatureError, hd]
  rw [key _ (h1.le.trans h2.le), key _ h1.le]
  set E := temperatureError Real.sqrt elements nodes (fun _ => 0) w
  have p1 : 0 < h ^ q - r ^ q := by linarith
  have p2 : 0 < h' ^ q - r ^ q := by linarith
  have hposh' : 0 < h' := hr.trans hh'
  have hposh : 0 < h := hposh'.trans hh
  have hd : 0 < Real.log (h / h') := Real.log_pos (by rwa [one_lt_div hposh'])
  have p3 : 0 < h ^ q := Real.rpow_pos_of_pos hposh q
  have p4 : 0 < h' ^ q := Real.rpow_pos_of_pos hposh' q
  refine ⟨Real.log ((h ^ q - r ^ q) * E / ((h' ^ q - r ^ q) * E)) / Real.log (h / h'), ?_, ?_, ?_⟩
  · simp only [rateBetween, mul_pos p1 hw, mul_pos p2 hw, and_self, if_true]
  · rw [mul_div_mul_right _ _ hw.ne', lt_div_iff₀ hd, ← Real.log_rpow (by positivity),
      Real.div_rpow hposh.le hposh'.le]
    refine Real.log_lt_log (by positivity) ?_
    rw [div_lt_div_iff₀ p4 p2]
    nlinarith
  · rw [mul_div_mul_right _ _ hw.ne', Real.div_rpow hr.le hposh'.le]
    have e1 : (1 : ℝ) - r ^ q / h' ^ q = (h' ^ q - r ^ q) / h' ^ q := by field_simp
    rw [e1, div_le_iff₀ hd, sub_mul, div_mul_cancel₀ _ hd.ne', ← Real.log_rpow (by positivity),
      Real.div_rpow hposh.le hposh'.le, Real.log_div p1.ne' p2.ne', Real.log_div p3.ne' p4.ne',
      Real.log_div p2.ne' p4.ne']
    have : Real.log (h ^ q - r ^ q) ≤ Real.log (h ^ q) := Real.log_le_log p1 (by linarith)
    linarith

/-- The hypotheses of the theorems hold for one triangle, meshes of sizes 1/8 and 1/16 and a finest mesh of
size 1/72. -/
example : ∃ rate, rateBetween
    (some (temperatureError Real.sqrt [[0, 1, 2]] (fun p k => if p = k + 1 then 1 else 0)
      (fun _ => 5 + (1 / 72 : ℝ) ^ (2 : ℝ) * 1) fun _ => 5 + (1 / 8 : ℝ) ^ (2 : ℝ) * 1))
    (some (temperatureError Real.sqrt [[0, 1, 2]] (fun p k => if p = k + 1 then 1 else 0)
      (fun _ => 5 + (1 / 72 : ℝ) ^ (2 : ℝ) * 1) fun _ => 5 + (1 / 16 : ℝ) ^ (2 : ℝ) * 1)) (1 / 8) (1 / 16) =
      some rate ∧ 2 < rate := by
  obtain ⟨r, h1, h2, -⟩ := C119_reference (elements := [[0, 1, 2]]) (N := 3)
    (nodes := fun p k => if p = k + 1 then 1 else 0)
    (by intro e he; simp only [List.mem_singleton] at he; subst he; decide)
    (by
      intro e he
      simp only [List.mem_singleton] at he
      subst he
      simp [vertices, Spec.det2])
    (fun _ => 5) (fun _ => 1) (h := 1 / 8) (h' := 1 / 16) (r := 1 / 72) (q := 2)
    (by norm_num) (by norm_num) (by norm_num) (by norm_num)
    (by simp [temperatureError, triangleArea]; norm_num)
  exact ⟨r, h1, h2⟩

/-- C119, negation: according to the caption the errors of the second column are measured from the finest mesh
at the corresponding `alpha`. They are measured from the state for `inf`: if the states for `alpha` do not
depend on the mesh, so that the errors of the caption are zero, the column shows the same positive error in
every row, and the rate zero. -/
theorem C119_caption_wrong {S : Type} (error : S → S → ℝ) (load : Option ℝ → ℕ → Option S) (alpha : ℝ)
    (ihs : List ℕ) (hne : ihs ≠ []) (h0 : 0 ∉ ihs) {finest : ℕ} (hf : finest ∈ ihs)
    (hmax : ∀ ih ∈ ihs, ih ≤ finest) {reference s : S} (hr : load none finest = some reference)
    (hs : ∀ ih ∈ ihs, load (some alpha) ih = some s) (hself : error s s = 0) (hd : 0 < error reference s) :
    (∀ ih ∈ ihs, ((load (some alpha) finest).bind fun own => (load (some alpha) ih).map (error own)) = some 0) ∧
    ∃ rows, convergenceTable error load alpha ihs = .ok rows ∧ rows.length = ihs.length ∧
      (∀ row ∈ rows, row.errorAlpha = some (error reference s)) ∧
      ∀ i, i + 1 < ihs.length → ihs.getD i 0 ≠ ihs.getD (i + 1) 0 →
        (rows.map TableRow.rateAlpha)[i + 1]? = some (some 0) := by
  have hmem : ∀ i < ihs.length, ihs.getD i 0 ∈ ihs := by
    intro i hi
    rw [List.getD_eq_getElem?_getD, List.getElem?_eq_getElem hi]
    exact List.getElem_mem hi
  refine ⟨fun ih hi => by rw [hs _ hf, hs _ hi]; simp [hself], ?_⟩
  obtain ⟨rows, hrows, hih, -, c⟩ := C119_table error load alpha ihs hne h0 hf hmax hr
  have hlen : rows.length = ihs.length := by rw [← hih, List.length_map]
  refine ⟨rows, hrows, hlen, ?_, ?_⟩
  · intro row hrow
    obtain ⟨i, hi, rfl⟩ := List.mem_iff_getElem.1 hrow
    have := c.error i (hlen ▸ hi)
    beta_reduce at this
    rw [hs _ (hmem i (hlen ▸ hi)), List.getElem?_map, List.getElem?_eq_getElem hi] at this
    simpa using this
  · intro i hi hdiff
    obtain ⟨q, hq, ho⟩ := c.rate i hi (error reference s) (error reference s)
      (by rw [hs _ (hmem i (by omega))]; rfl) (by rw [hs _ (hmem _ hi)]; rfl) hd hd hdiff
    rw [hq]
    have hp : ∀ j < ihs.length, 0 < 1 / (ihs.getD j 0 : ℝ) := by
      intro j hj
      have : ihs.getD j 0 ≠ 0 := fun h => h0 (h ▸ hmem j hj)
      positivity
    have hh : (1 / (ihs.getD i 0 : ℝ)) ≠ 1 / (ihs.getD (i + 1) 0 : ℝ) := by
      intro h
      rw [one_div, one_div, inv_inj] at h
      exact hdiff (by exact_mod_cast h)
    have hz := (C119_rate hd hd (hp i (by omega)) (hp _ hi) hh 0).2 (by simp [Spec.IsOrder])
    rw [← C119_rate hd hd (hp i (by omega)) (hp _ hi) hh, hz] at ho
    rw [ho]

example : ∃ rows, convergenceTable (fun a b : ℝ => |a - b|)
    (fun alpha ih => some (match alpha with | none => 1 / (ih : ℝ) | some _ => 2)) 1000000 [4, 8, 16] =
      .ok rows ∧ ∀ row ∈ rows, row.errorAlpha = some |1 / ((16 : ℕ) : ℝ) - 2| := by
  obtain ⟨-, rows, h, -, h', -⟩ := C119_caption_wrong (fun a b : ℝ => |a - b|)
    (fun alpha ih => some (match alpha with | none => 1 / (ih : ℝ) | some _ => 2)) 1000000 [4, 8, 16] (by simp)
    (by simp) (finest := 16) (by simp) (by simp) (reference := 1 / ((16 : ℕ) : ℝ)) (s := 2) rfl
    (fun _ _ => rfl) (by simp) (by norm_num)
  exact ⟨rows, h, h'⟩

/-- C119: a plot shows, for every pair of the sequence but the last one, the distance of its state from that
of the last pair, and no value below `10⁻¹⁶`. -/
theorem C119_points {S : Type} (error : S → S → ℝ) (load : Option ℝ → ℕ → Option S)
    (sequence : List (Option ℝ × ℕ)) (last : Option ℝ × ℕ) (state : Option ℝ × ℕ → S)
    (hl : ∀ p ∈ sequence ++ [last], load p.1 p.2 = some (state p)) :
    convergencePoints error load (sequence ++ [last]) =
      some (sequence.map fun p => max (error (state last) (state p)) (1 / 10 ^ 16)) := by
  have hm : ∀ l : List (Option ℝ × ℕ), (∀ p ∈ l, load p.1 p.2 = some (state p)) →
      l.mapM (fun p => (load p.1 p.2).map (error (state last))) =
        some (l.map fun p => error (state last) (state p)) := by
    intro l
    induction l with
    | nil => intro _; rfl
    | cons a l ih =>
      intro h
      rw [List.mapM_cons, h a (by simp), ih fun p hp => h p (by simp [hp])]
      rfl
  unfold convergencePoints
  simp only [List.getLast?_concat, List.dropLast_concat, bind, Option.bind_some, pure]
  rw [hl last (by simp), Option.bind_some, hm sequence fun p hp => hl p (by simp [hp]), Option.bind_some,
    List.map_map]
  rfl

end Conmech
