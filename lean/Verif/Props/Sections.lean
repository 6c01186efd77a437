import Mathlib.Tactic.Linarith
import Mathlib.Tactic.FieldSimp
import Mathlib.Tactic.Ring
import Mathlib.Tactic.Positivity
import Mathlib.Data.Rat.Floor
import Verif.Model.Sections
import Verif.Props.Plotting
/-!
C84: the samples of vertical sections. C85: injected products are kept apart.
-/
namespace Conmech

section C84

variable {K : Type} [Field K] [LinearOrder K] [IsStrictOrderedRing K] [FloorRing K]

/-- The height of the body. -/
def Spec.heightOf (heights : List K) : K := highestOf heights - lowestOf heights

open Spec

theorem heightOf_nonneg (heights : List K) : 0 ≤ heightOf heights := by
  cases heights with
  | nil => simp [heightOf, highestOf, lowestOf]
  | cons a l =>
    have h1 := lowestOf_le (l := a :: l) List.mem_cons_self
    have h2 := le_highestOf (l := a :: l) List.mem_cons_self
    unfold heightOf
    linarith

/-- C84: the number of samples is the integral part of twice the height times the number of nodes. -/
theorem C84_number (heights : List K) :
    (sectionSamples heights).length = ⌊2 * (heights.length : K) * heightOf heights⌋.toNat := by
  unfold sectionSamples linspace
  simp only [List.length_map, List.length_range]
  congr 2
  unfold heightOf
  rw [div_div_eq_mul_div, div_inv_eq_mul]
  ring

theorem samples_eq (heights : List K) (n : ℕ) (hn : (sectionSamples heights).length = n) :
    sectionSamples heights = linspace (lowestOf heights) (highestOf heights) n := by
  rw [← hn]
  unfold sectionSamples linspace
  simp only [List.length_map, List.length_range]

theorem samples_get (heights : List K) (i : ℕ) (h2 : 2 ≤ (sectionSamples heights).length)
    (hi : i < (sectionSamples heights).length) :
    (sectionSamples heights)[i]? = some (lowestOf heights +
      (i : K) * (heightOf heights / (((sectionSamples heights).length : K) - 1))) := by
  conv_lhs => rw [samples_eq heights _ rfl]
  unfold linspace
  rw [List.getElem?_map, List.getElem?_range hi, Option.map_some, if_neg (by omega)]
  rfl

/-- C84: the first sample is at the lowest node and the last one at the highest, if there are two. -/
theorem C84_ends_partial (heights : List K) (h : 1 ≤ (heights.length : K) * heightOf heights) :
    (sectionSamples heights).head? = some (lowestOf heights) ∧
    (sectionSamples heights).getLast? = some (highestOf heights) := by
  have h2 : 2 ≤ (sectionSamples heights).length := by
    rw [C84_number]
    have : (2 : ℤ) ≤ ⌊2 * (heights.length : K) * heightOf heights⌋ := by
      rw [Int.le_floor]; push_cast; linarith
    omega
  constructor
  · rw [List.head?_eq_getElem?, samples_get heights 0 h2 (by omega)]
    simp
  · rw [List.getLast?_eq_getElem?, samples_get heights _ h2 (by omega)]
    have hc : (((sectionSamples heights).length - 1 : ℕ) : K) =
        ((sectionSamples heights).length : K) - 1 := by
      rw [Nat.cast_sub (by omega), Nat.cast_one]
    have hne : ((sectionSamples heights).length : K) - 1 ≠ 0 := by
      rw [← hc]
      exact Nat.cast_ne_zero.2 (by omega)
    rw [hc, mul_div_cancel₀ _ hne]
    simp [heightOf]

/-- C84: samples are between the lowest and the highest node. -/
theorem C84_inside (heights : List K) : ∀ y ∈ sectionSamples heights,
    lowestOf heights ≤ y ∧ y ≤ highestOf heights := by
  intro y hy
  have h0 := heightOf_nonneg heights
  have hmax : highestOf heights = lowestOf heights + heightOf heights := by unfold heightOf; ring
  rcases Nat.lt_or_ge (sectionSamples heights).length 2 with h | h
  · have hlen : (sectionSamples heights).length = 1 := by
      have := List.length_pos_of_mem hy
      omega
    rw [samples_eq heights 1 hlen] at hy
    have : y = lowestOf heights := by simpa [linspace] using hy
    rw [this, hmax]
    exact ⟨le_refl _, by linarith⟩
  · obtain ⟨i, hi, rfl⟩ := List.getElem_of_mem hy
    have e := samples_get heights i h hi
    rw [List.getElem?_eq_getElem hi, Option.some_inj] at e
    have hpos : (0 : K) < ((sectionSamples heights).length : K) - 1 := by
      have : (2 : K) ≤ ((sectionSamples heights).length : K) := by exact_mod_cast h
      linarith
    have hle : (i : K) ≤ ((sectionSamples heights).length : K) - 1 := by
      have : ((i + 1 : ℕ) : K) ≤ ((sectionSamples heights).length : K) := by exact_mod_cast hi
      push_cast at this
      linarith
    have h1 : 0 ≤ (i : K) * (heightOf heights / (((sectionSamples heights).length : K) - 1)) :=
      mul_nonneg (Nat.cast_nonneg _) (div_nonneg h0 hpos.le)
    have h2 : (i : K) * (heightOf heights / (((sectionSamples heights).length : K) - 1)) ≤
        heightOf heights := by
      calc _ ≤ (((sectionSamples heights).length : K) - 1) *
            (heightOf heights / (((sectionSamples heights).length : K) - 1)) :=
            mul_le_mul_of_nonneg_right hle (div_nonneg h0 hpos.le)
        _ = heightOf heights := mul_div_cancel₀ _ hpos.ne'
    rw [e, hmax]
    constructor <;> linarith

/-- C84: the samples increase, and neighbours are less than three half node distances apart: the
distance is below `3 / (2 N)` for `N` nodes. -/
theorem C84_spacing_partial (heights : List K) (h : 1 ≤ (heights.length : K) * heightOf heights)
    (i : ℕ) (a b : K) (ha : (sectionSamples heights)[i]? = some a)
    (hb : (sectionSamples heights)[i + 1]? = some b) :
    a < b ∧ b - a < 3 / (2 * (heights.length : K)) := by
  obtain ⟨hi, -⟩ := List.getElem?_eq_some_iff.1 hb
  have h2 : 2 ≤ (sectionSamples heights).length := by omega
  rw [samples_get heights _ h2 (by omega), Option.some_inj] at ha hb
  set n : K := ((sectionSamples heights).length : K) with hn
  have hn2 : (2 : K) ≤ n := by rw [hn]; exact_mod_cast h2
  have hN : (0 : K) < heights.length := by
    rcases (Nat.cast_nonneg heights.length : (0 : K) ≤ _).eq_or_lt with h' | h'
    · rw [← h'] at h; linarith
    · exact h'
  have hh : 0 < heightOf heights := by
    by_contra hc
    have : (heights.length : K) * heightOf heights ≤ 0 :=
      mul_nonpos_of_nonneg_of_nonpos hN.le (not_lt.1 hc)
    linarith
  have hfloor : 2 * (heights.length : K) * heightOf heights < n + 1 := by
    have h1 := Int.lt_floor_add_one (2 * (heights.length : K) * heightOf heights)
    have h3 : (⌊2 * (heights.length : K) * heightOf heights⌋ : K) = n := by
      rw [hn, C84_number]
      have : (0 : ℤ) ≤ ⌊2 * (heights.length : K) * heightOf heights⌋ :=
        Int.floor_nonneg.2 (by positivity)
      exact_mod_cast (Int.toNat_of_nonneg this).symm
    linarith
  have hd : b - a = heightOf heights / (n - 1) := by
    rw [← ha, ← hb]; push_cast; ring
  have hpos : 0 < n - 1 := by linarith
  constructor
  · have : 0 < heightOf heights / (n - 1) := div_pos hh hpos
    linarith
  · rw [hd, div_lt_div_iff₀ hpos (by linarith)]
    nlinarith

omit [IsStrictOrderedRing K] in
/-- C84: the stored values are those of the interpolated displacement on the section. -/
theorem C84_values (interpolate : K → K → K) (level : K) (heights : List K) :
    (sectionValue interpolate level heights).2 =
      (sectionValue interpolate level heights).1.map fun y => interpolate level y := rfl

/-- C84 is wrong for small bodies: if the height is less than half of the inverse number of nodes,
nothing is stored, and up to twice this height a single value at the bottom. -/
theorem C84_small_wrong (heights : List K) :
    (2 * (heights.length : K) * heightOf heights < 1 → sectionSamples heights = []) ∧
    (1 ≤ 2 * (heights.length : K) * heightOf heights → 2 * (heights.length : K) * heightOf heights < 2 →
      sectionSamples heights = [lowestOf heights]) := by
  constructor
  · intro h
    rw [← List.length_eq_zero_iff, C84_number]
    have : ⌊2 * (heights.length : K) * heightOf heights⌋ < 1 := by
      rw [Int.floor_lt]; exact_mod_cast h
    omega
  · intro h1 h2
    have e : ⌊2 * (heights.length : K) * heightOf heights⌋ = 1 := by
      rw [Int.floor_eq_iff]; push_cast; exact ⟨h1, by linarith⟩
    rw [samples_eq heights 1 (by rw [C84_number, e]; rfl)]
    simp [linspace]

/-- A unit square with five nodes, and one of a tenth of the size. -/
example : (1 : ℚ) ≤ (([0, 0, 1, 1, 1 / 2] : List ℚ).length : ℚ) * heightOf [0, 0, 1, 1, 1 / 2] := by
  decide +kernel
example : sectionSamples ([0, 1 / 2, 1] : List ℚ) = [0, 1 / 5, 2 / 5, 3 / 5, 4 / 5, 1] := by
  decide +kernel
example : sectionSamples ([0, 0, 1 / 11, 1 / 11, 1 / 22] : List ℚ) = [] := by decide +kernel

end C84

section C85

variable {K : Type} [Field K] {V : Type}

/-- The products kept by a state after all of `ids` have been injected. -/
def Spec.injected (name : ℕ → String) (ids : List ℕ) (s : State K) : State K :=
  ids.foldl (fun s id => s.injectProduct (name id) id) s

/-- The product of a name. -/
def Spec.productNamed (s : State K) (name : String) : Option ℕ := s.products.lookup name

open Spec

theorem lookup_dictSet (key key' : String) (v : ℕ) (d : List (String × ℕ)) :
    (dictSet key v d).lookup key' = if key' = key then some v else d.lookup key' := by
  induction d with
  | nil =>
    by_cases h : key' = key
    · subst h; simp [dictSet]
    · have : (key' == key) = false := by simpa using h
      simp [dictSet, List.lookup, this, h]
  | cons e d ih =>
    obtain ⟨k, w⟩ := e
    unfold dictSet
    by_cases hk : k = key
    · subst hk
      rw [if_pos rfl]
      by_cases h : key' = k
      · subst h; simp [List.lookup]
      · have : (key' == k) = false := by simpa using h
        simp [List.lookup, this, h]
    · rw [if_neg hk]
      by_cases h : key' = k
      · subst h
        simp [List.lookup, hk]
      · have : (key' == k) = false := by simpa using h
        simp only [List.lookup, this, ih]

/-- C85: a name gives the last product injected under it, or what it was before. -/
theorem C85_last (name : ℕ → String) (ids : List ℕ) (s : State K) (key : String) :
    productNamed (injected name ids s) key =
      ((ids.filter fun id => name id = key).getLast?).or (productNamed s key) := by
  induction ids generalizing s with
  | nil => rfl
  | cons id ids ih =>
    show productNamed (injected name ids (s.injectProduct (name id) id)) key = _
    rw [ih]
    have e : productNamed (s.injectProduct (name id) id) key =
        if key = name id then some id else productNamed s key := lookup_dictSet _ _ _ _
    rw [e]
    by_cases h : name id = key
    · rw [List.filter_cons_of_pos (by simpa using h), if_pos h.symm]
      cases hf : ids.filter (fun id => name id = key) with
      | nil => rfl
      | cons a l => rw [List.getLast?_cons_cons]; cases h' : (a :: l).getLast? <;> simp_all
    · rw [List.filter_cons_of_neg (by simpa using h), if_neg (fun h' => h h'.symm)]

/-- C85: products with different names are all kept, each under its name. -/
theorem C85_all_partial (name : ℕ → String) (ids : List ℕ) (s : State K)
    (h : (ids.map name).Nodup) (id : ℕ) (hid : id ∈ ids) :
    productNamed (injected name ids s) (name id) = some id := by
  rw [C85_last]
  have : ids.filter (fun j => name j = name id) = [id] := by
    have hn : ids.Nodup := h.of_map
    have hinj : ∀ j ∈ ids, name j = name id → j = id := fun j hj he =>
      List.inj_on_of_nodup_map h hj hid he
    have e : ids.filter (fun j => name j = name id) = ids.filter (fun j => j == id) :=
      List.filter_congr fun j hj => by
        by_cases hj' : j = id
        · simp [hj']
        · have : ¬ name j = name id := fun he => hj' (hinj j hj he)
          simp [hj', this]
    rw [e]
    rw [List.filter_beq, List.count_eq_one_of_mem hn hid]
    rfl
  rw [this]
  rfl

omit [Field K] in
/-- Updating the products of a state changes no other product. -/
theorem updateAll_other [DecidableEq K] {E : Type} (s : Snapshot K) (id : ℕ) :
    ∀ (products : List (String × ℕ)) (st st' : ProductStore K V), (∀ e ∈ products, e.2 ≠ id) →
      updateAll (E := E) s products st = .ok st' → st'.get id = st.get id := by
  intro products
  induction products with
  | nil => intro st st' _ h; cases h; rfl
  | cons e rest ih =>
    obtain ⟨k, j⟩ := e
    intro st st' hne h
    unfold updateAll at h
    cases hp : (st.get j).update (E := E) s with
    | error e => rw [hp] at h; cases h
    | ok p =>
      rw [hp] at h
      have := ih (st.set j p) st' (fun e he => hne e (List.mem_cons_of_mem _ he)) h
      rw [this]
      exact if_neg fun h => hne (k, j) List.mem_cons_self h.symm

/-- C85 is wrong: of two limit point products at the same place for different obstacles only the last
one is kept. The first gets no data any more. -/
theorem C85_limit_points_wrong [DecidableEq K] {E : Type} (format : K → String)
    (rule : K → K → Snapshot K → V) (x level level' : K) (st : ProductStore K V) (i j : ℕ)
    (hij : i ≠ j) (hi : st.get i = limitPointsProduct format rule x level)
    (hj : st.get j = limitPointsProduct format rule x level') (s : State K) (hs : s.products = []) :
    (injected (fun id => (st.get id).name) [i, j] s).products = [("limit points at " ++ format x, j)] ∧
    ∀ (now : Snapshot K) (st' : ProductStore K V),
      updateAll (E := E) now (injected (fun id => (st.get id).name) [i, j] s).products st = .ok st' →
      (st'.get i).data = [] := by
  have hp : (injected (fun id => (st.get id).name) [i, j] s).products =
      [("limit points at " ++ format x, j)] := by
    simp only [injected, List.foldl_cons, List.foldl_nil, State.injectProduct, hs, hi, hj,
      limitPointsProduct, dictSet, if_true]
  refine ⟨hp, fun now st' h => ?_⟩
  rw [hp] at h
  rw [updateAll_other now i _ st st' (by
    intro e he
    rw [List.mem_singleton.1 he]
    exact fun h => hij h.symm) h, hi]
  rfl

/-- C85 is wrong: the same for two sections whose places agree to two digits. -/
theorem C85_rounded_wrong [DecidableEq K] {E : Type} (format : K → String)
    (rule : K → Snapshot K → V) (x x' : K) (hx : format x = format x') (st : ProductStore K V)
    (i j : ℕ) (hij : i ≠ j) (hi : st.get i = sectionProduct format rule x)
    (hj : st.get j = sectionProduct format rule x') (s : State K) (hs : s.products = []) :
    (injected (fun id => (st.get id).name) [i, j] s).products = [("intersection at " ++ format x, j)] ∧
    ∀ (now : Snapshot K) (st' : ProductStore K V),
      updateAll (E := E) now (injected (fun id => (st.get id).name) [i, j] s).products st = .ok st' →
      (st'.get i).data = [] := by
  have hp : (injected (fun id => (st.get id).name) [i, j] s).products =
      [("intersection at " ++ format x, j)] := by
    simp only [injected, List.foldl_cons, List.foldl_nil, State.injectProduct, hs, hi, hj,
      sectionProduct, dictSet, ← hx, if_true]
  refine ⟨hp, fun now st' h => ?_⟩
  rw [hp] at h
  rw [updateAll_other now i _ st st' (by
    intro e he
    rw [List.mem_singleton.1 he]
    exact fun h => hij h.symm) h, hi]
  rfl

/-- Two decimal digits of a number that is not negative. -/
def twoDigits (x : ℚ) : String :=
  let k := (round (100 * x)).toNat
  toString (k / 100) ++ "." ++ toString (k / 10 % 10) ++ toString (k % 10)

/-- Places that agree to two digits, and names that are different. -/
example : twoDigits (501 / 1000) = twoDigits (502 / 1000) := by decide +kernel
example : (([0, 1] : List ℕ).map fun id => if id = 0 then "penetration" else "limit points").Nodup := by
  decide +kernel

end C85

end Conmech
