import Mathlib.Algebra.BigOperators.Group.Multiset.Basic
import Mathlib.Algebra.Order.BigOperators.Group.Multiset
import Mathlib.Data.List.Basic
import Mathlib.Tactic.IntervalCases
import Verif.Lemmas.MeshZoo
import Verif.Lemmas.Boundary
/-!
The faces of the cross mesh, in units of half a cell.
-/
namespace Conmech
open Spec

/-- The rows of the array of elements. -/
def elementRows (elements : List (ℕ × ℕ × ℕ)) : List (List ℕ) :=
  elements.map fun e => [e.1, e.2.1, e.2.2]

/-- The corners of triangle number `n` of a cell, in units of half a cell. -/
def halfRow (i j : ℕ) : ℕ → (ℕ × ℕ) × (ℕ × ℕ) × (ℕ × ℕ)
  | 0 => ((2 * i, 2 * j), (2 * (i + 1), 2 * j), (2 * i + 1, 2 * j + 1))
  | 1 => ((2 * (i + 1), 2 * j), (2 * (i + 1), 2 * (j + 1)), (2 * i + 1, 2 * j + 1))
  | 2 => ((2 * (i + 1), 2 * (j + 1)), (2 * i, 2 * (j + 1)), (2 * i + 1, 2 * j + 1))
  | _ => ((2 * i, 2 * (j + 1)), (2 * i, 2 * j), (2 * i + 1, 2 * j + 1))

/-- The numbers of all triangles. -/
def triangleNumbers (sx sy : ℕ) : List ((ℕ × ℕ) × ℕ) :=
  (cells sx sy).flatMap fun ij => (List.range 4).map fun n => (ij, n)

theorem mem_triangleNumbers {sx sy : ℕ} (x : (ℕ × ℕ) × ℕ) :
    x ∈ triangleNumbers sx sy ↔ x.1.1 < sx ∧ x.1.2 < sy ∧ x.2 < 4 := by
  obtain ⟨ij, n⟩ := x
  simp only [triangleNumbers, List.mem_flatMap, List.mem_map, List.mem_range, Prod.mk.injEq]
  constructor
  · rintro ⟨ij', h, n', hn, rfl, rfl⟩
    have := (mem_cells ij').1 h
    exact ⟨this.1, this.2, hn⟩
  · rintro ⟨h1, h2, h3⟩
    exact ⟨ij, (mem_cells ij).2 ⟨h1, h2⟩, n, h3, rfl, rfl⟩

theorem nodup_triangleNumbers (sx sy : ℕ) : (triangleNumbers sx sy).Nodup := by
  unfold triangleNumbers
  rw [List.nodup_flatMap]
  refine ⟨fun ij _ => List.nodup_range.map fun a b h => by simpa using h, ?_⟩
  refine (nodup_cells sx sy).imp fun {a b} hne => ?_
  simp only [Function.onFun, List.disjoint_left, List.mem_map]
  rintro x ⟨n, -, rfl⟩ ⟨m, -, h⟩
  exact hne (by simpa using (congrArg Prod.fst h).symm)

/-- The number of the node with the given position. -/
def halfIndex (sx sy : ℕ) (h : ℕ × ℕ) : ℕ := (halfWrites sx sy).idxOf h

/-- The row of a triangle. -/
def rowOf (sx sy : ℕ) (x : (ℕ × ℕ) × ℕ) : List ℕ :=
  let r := halfRow x.1.1 x.1.2 x.2
  [halfIndex sx sy r.1, halfIndex sx sy r.2.1, halfIndex sx sy r.2.2]

/-- A position of a node. -/
def OnGrid (sx sy : ℕ) (h : ℕ × ℕ) : Prop := h.1 ≤ 2 * sx ∧ h.2 ≤ 2 * sy ∧ h.1 % 2 = h.2 % 2

theorem halfRow_onGrid {sx sy : ℕ} {x : (ℕ × ℕ) × ℕ} (hx : x ∈ triangleNumbers sx sy) :
    OnGrid sx sy (halfRow x.1.1 x.1.2 x.2).1 ∧ OnGrid sx sy (halfRow x.1.1 x.1.2 x.2).2.1 ∧
      OnGrid sx sy (halfRow x.1.1 x.1.2 x.2).2.2 := by
  obtain ⟨⟨i, j⟩, n⟩ := x
  obtain ⟨h1, h2, h3⟩ := (mem_triangleNumbers _).1 hx
  simp only at h1 h2 h3
  interval_cases n <;> simp only [halfRow, OnGrid] <;> omega

theorem halfIndex_inj {sx sy : ℕ} (hx : 1 ≤ sx) (hy : 1 ≤ sy) {p q : ℕ × ℕ} (hp : OnGrid sx sy p) :
    halfIndex sx sy p = halfIndex sx sy q ↔ p = q :=
  List.idxOf_inj ((mem_halfWrites hx hy p).2 hp)

theorem forall₂_map_eq {α β γ δ : Type} {R : α → β → Prop} {f : α → γ} {g : δ → γ} {k : δ → β}
    {l : List α} {m : List δ} (h : List.Forall₂ R l (m.map k))
    (hR : ∀ a, ∀ b ∈ m, R a (k b) → f a = g b) : l.map f = m.map g := by
  induction m generalizing l with
  | nil => cases h; rfl
  | cons b m ih =>
    cases h with
    | cons h1 h2 =>
      rw [List.map_cons, List.map_cons, hR _ b (by simp) h1,
        ih h2 fun a b hb => hR a b (List.mem_cons_of_mem _ hb)]

section
variable {K : Type} [Field K] [LinearOrder K] [IsStrictOrderedRing K]

theorem cellTriangles_eq (ex ey : K) (i j : ℕ) : cellTriangles ex ey i j =
    (List.range 4).map fun n => (halfPoint ex ey (halfRow i j n).1,
      halfPoint ex ey (halfRow i j n).2.1, halfPoint ex ey (halfRow i j n).2.2) := by
  have e1 : ∀ i : ℕ, ((2 * i : ℕ) : K) / 2 = (i : K) := fun i => by push_cast; field_simp
  have e2 : ∀ i : ℕ, ((2 * i + 1 : ℕ) : K) / 2 = (i : K) + 1 / 2 := fun i => by
    push_cast; field_simp
  simp only [cellTriangles, List.range_succ, List.range_zero, List.map_nil,
    List.map_cons, List.nil_append, List.cons_append, halfRow, halfPoint, e1, e2]
  simp only [Nat.cast_add, Nat.cast_one]

theorem crossTriangles_eq (sx sy : ℕ) (ex ey : K) : crossTriangles sx sy ex ey =
    (triangleNumbers sx sy).map fun x => (halfPoint ex ey (halfRow x.1.1 x.1.2 x.2).1,
      halfPoint ex ey (halfRow x.1.1 x.1.2 x.2).2.1,
      halfPoint ex ey (halfRow x.1.1 x.1.2 x.2).2.2) := by
  simp only [crossTriangles, triangleNumbers, cellTriangles_eq, List.map_flatMap, List.map_map,
    Function.comp_def]

theorem halfIndex_of_getElem? {sx sy : ℕ} (hx : 1 ≤ sx) (hy : 1 ≤ sy) {ex ey : K}
    (hex : 0 < ex) (hey : 0 < ey) {h : ℕ × ℕ} (hh : OnGrid sx sy h) {k : ℕ}
    (hk : (crossNodes sx sy ex ey)[k]? = some (halfPoint ex ey h)) : k = halfIndex sx sy h := by
  rw [crossNodes_eq hx hy, List.getElem?_map, Option.map_eq_some_iff] at hk
  obtain ⟨g, hg, hgh⟩ := hk
  have hgm : g ∈ halfWrites sx sy := List.mem_of_getElem? hg
  have : g = h := by
    refine halfPoint_separated (tol := min ex ey) (min_le_left _ _) (min_le_right _ _) (lt_min hex hey)
      ((mem_halfWrites hx hy g).1 hgm).2.2 hh.2.2 ?_
    rw [hgh]
    simpa using ⟨hex, hey⟩
  subst this
  obtain ⟨hlt, rfl⟩ := List.getElem?_eq_some_iff.1 hg
  exact ((nodup_halfWrites hx hy).idxOf_getElem k hlt).symm

/-- The rows of the elements of the cross mesh. -/
theorem crossElements_rows {sx sy : ℕ} (hx : 1 ≤ sx) (hy : 1 ≤ sy) {ex ey : K}
    (hex : 1 / 10000 ≤ ex) (hey : 1 / 10000 ≤ ey) {es : List (ℕ × ℕ × ℕ)}
    (hes : crossElements sx sy ex ey (crossNodes sx sy ex ey) = some es) :
    elementRows es = (triangleNumbers sx sy).map (rowOf sx sy) := by
  have hex0 : 0 < ex := lt_of_lt_of_le (by norm_num) hex
  have hey0 : 0 < ey := lt_of_lt_of_le (by norm_num) hey
  obtain ⟨es', h1, h2⟩ := crossElements_corners (sx := sx) (sy := sy) hex hey
  obtain rfl : es' = es := by rw [hes] at h1; exact (Option.some.inj h1).symm
  rw [crossTriangles_eq] at h2
  refine forall₂_map_eq h2 fun e x hxm ⟨c1, c2, c3⟩ => ?_
  obtain ⟨g1, g2, g3⟩ := halfRow_onGrid hxm
  simp only [rowOf]
  rw [← halfIndex_of_getElem? hx hy hex0 hey0 g1 c1, ← halfIndex_of_getElem? hx hy hex0 hey0 g2 c2,
    ← halfIndex_of_getElem? hx hy hex0 hey0 g3 c3]

end

/-! ### counting faces -/

theorem pair_eq_iff {sx sy : ℕ} (hx : 1 ≤ sx) (hy : 1 ≤ sy) {p q r s : ℕ × ℕ} (hp : OnGrid sx sy p)
    (hq : OnGrid sx sy q) (hr : OnGrid sx sy r) (hs : OnGrid sx sy s) :
    ({halfIndex sx sy p, halfIndex sx sy q} : Multiset ℕ) = {halfIndex sx sy r, halfIndex sx sy s} ↔
      (p = r ∧ q = s) ∨ (p = s ∧ q = r) := by
  constructor
  · intro h
    have h1 : halfIndex sx sy p ∈ ({halfIndex sx sy r, halfIndex sx sy s} : Multiset ℕ) := by
      rw [← h]; simp
    simp only [Multiset.insert_eq_cons, Multiset.mem_cons, Multiset.mem_singleton,
      halfIndex_inj hx hy hp] at h1
    rcases h1 with rfl | rfl
    · left
      refine ⟨rfl, ?_⟩
      simp only [Multiset.insert_eq_cons, Multiset.cons_inj_right, Multiset.singleton_inj,
        halfIndex_inj hx hy hq] at h
      exact h
    · right
      refine ⟨rfl, ?_⟩
      rw [Multiset.pair_comm (halfIndex sx sy r)] at h
      simp only [Multiset.insert_eq_cons, Multiset.cons_inj_right, Multiset.singleton_inj,
        halfIndex_inj hx hy hq] at h
      exact h
  · rintro (⟨rfl, rfl⟩ | ⟨rfl, rfl⟩)
    · rfl
    · exact Multiset.pair_comm _ _

/-- The number of faces of a triangle that are equal to `f`. -/
def rowCount (a b c : ℕ) (f : Multiset ℕ) : ℕ :=
  (if ({b, c} : Multiset ℕ) = f then 1 else 0) + (if ({a, c} : Multiset ℕ) = f then 1 else 0) +
    (if ({a, b} : Multiset ℕ) = f then 1 else 0)

theorem count_row (a b c : ℕ) (hab : a ≠ b) (hac : a ≠ c) (hbc : b ≠ c) (f : Multiset ℕ) :
    (((([a, b, c] : List ℕ) : Multiset ℕ).map fun v => (([a, b, c] : List ℕ) : Multiset ℕ).erase v).count f)
      = rowCount a b c f := by
  have e1 : (([a, b, c] : List ℕ) : Multiset ℕ).erase a = {b, c} := by
    rw [Multiset.coe_erase, List.erase_cons_head]
    rfl
  have e2 : (([a, b, c] : List ℕ) : Multiset ℕ).erase b = {a, c} := by
    rw [Multiset.coe_erase, List.erase_cons_tail (by simpa using hab), List.erase_cons_head]
    rfl
  have e3 : (([a, b, c] : List ℕ) : Multiset ℕ).erase c = {a, b} := by
    rw [Multiset.coe_erase, List.erase_cons_tail (by simpa using hac),
      List.erase_cons_tail (by simpa using hbc), List.erase_cons_head]
    rfl
  have : (([a, b, c] : List ℕ) : Multiset ℕ) = a ::ₘ b ::ₘ c ::ₘ 0 := rfl
  simp only [Multiset.map_coe, List.map_cons, List.map_nil, e1, e2, e3, rowCount, Multiset.coe_count,
    List.count_cons, List.count_nil, beq_iff_eq]
  ring

theorem sum_indicator {α : Type} [DecidableEq α] {l : List α} {x : α} (hn : l.Nodup) (hx : x ∈ l) :
    (l.map fun y => if y = x then 1 else 0).sum = 1 := by
  induction l with
  | nil => simp at hx
  | cons y l ih =>
    rw [List.map_cons, List.sum_cons]
    rw [List.nodup_cons] at hn
    by_cases h : y = x
    · subst h
      have : (l.map fun z => if z = y then 1 else 0).sum = 0 := by
        refine List.sum_eq_zero fun a ha => ?_
        obtain ⟨z, hz, rfl⟩ := List.mem_map.1 ha
        rw [if_neg]
        rintro rfl
        exact hn.1 hz
      rw [if_pos rfl, this]
    · rw [if_neg h, ih hn.2 ((List.mem_cons.1 hx).resolve_left (Ne.symm h))]

/-- The number of elements at a face. -/
theorem count_crossFaces {sx sy : ℕ} (hx : 1 ≤ sx) (hy : 1 ≤ sy) (f : Multiset ℕ) :
    (faces ((triangleNumbers sx sy).map (rowOf sx sy))).count f =
      ((triangleNumbers sx sy).map fun x =>
        rowCount (halfIndex sx sy (halfRow x.1.1 x.1.2 x.2).1)
          (halfIndex sx sy (halfRow x.1.1 x.1.2 x.2).2.1)
          (halfIndex sx sy (halfRow x.1.1 x.1.2 x.2).2.2) f).sum := by
  unfold faces
  rw [Multiset.count_bind, Multiset.map_coe, Multiset.sum_coe, List.map_map]
  congr 1
  refine List.map_congr_left fun x hxm => ?_
  obtain ⟨g1, g2, g3⟩ := halfRow_onGrid hxm
  simp only [Function.comp, rowOf]
  obtain ⟨⟨i, j⟩, n⟩ := x
  obtain ⟨-, -, hn⟩ := (mem_triangleNumbers _).1 hxm
  simp only at hn g1 g2 g3 ⊢
  refine count_row _ _ _ ?_ ?_ ?_ f <;> rw [Ne, halfIndex_inj hx hy (by assumption)] <;>
    interval_cases n <;> simp only [halfRow, Prod.mk.injEq] <;> omega

/-- A face that is found in a single triangle, once, is a boundary face. -/
theorem boundaryFace_of_single {sx sy : ℕ} (hx : 1 ≤ sx) (hy : 1 ≤ sy) {f : Multiset ℕ}
    {x0 : (ℕ × ℕ) × ℕ} (h0 : x0 ∈ triangleNumbers sx sy)
    (h : ∀ x ∈ triangleNumbers sx sy, rowCount (halfIndex sx sy (halfRow x.1.1 x.1.2 x.2).1)
          (halfIndex sx sy (halfRow x.1.1 x.1.2 x.2).2.1)
          (halfIndex sx sy (halfRow x.1.1 x.1.2 x.2).2.2) f = if x = x0 then 1 else 0) :
    BoundaryFace ((triangleNumbers sx sy).map (rowOf sx sy)) f := by
  unfold BoundaryFace
  rw [count_crossFaces hx hy, List.map_congr_left h]
  exact sum_indicator (nodup_triangleNumbers sx sy) h0

/-- A face that is found in two triangles is no boundary face. -/
theorem not_boundaryFace_of_two {sx sy : ℕ} (hx : 1 ≤ sx) (hy : 1 ≤ sy) {f : Multiset ℕ}
    {x y : (ℕ × ℕ) × ℕ} (hxm : x ∈ triangleNumbers sx sy) (hym : y ∈ triangleNumbers sx sy)
    (hxy : x ≠ y)
    (h : ∀ z, z = x ∨ z = y → 1 ≤ rowCount (halfIndex sx sy (halfRow z.1.1 z.1.2 z.2).1)
          (halfIndex sx sy (halfRow z.1.1 z.1.2 z.2).2.1)
          (halfIndex sx sy (halfRow z.1.1 z.1.2 z.2).2.2) f) :
    ¬ BoundaryFace ((triangleNumbers sx sy).map (rowOf sx sy)) f := by
  unfold BoundaryFace
  rw [count_crossFaces hx hy]
  have p1 := List.perm_cons_erase hxm
  have hy' : y ∈ (triangleNumbers sx sy).erase x := (List.mem_erase_of_ne hxy.symm).2 hym
  have p2 := List.perm_cons_erase hy'
  rw [(p1.map _).sum_eq, List.map_cons, List.sum_cons, (p2.map _).sum_eq, List.map_cons, List.sum_cons]
  have h1 := h x (Or.inl rfl)
  have h2 := h y (Or.inr rfl)
  omega

theorem rowCount_pos {a b c : ℕ} {f : Multiset ℕ} :
    1 ≤ rowCount a b c f ↔ f = {b, c} ∨ f = {a, c} ∨ f = {a, b} := by
  unfold rowCount
  constructor
  · intro h
    by_contra hn
    push Not at hn
    rw [if_neg hn.1.symm, if_neg hn.2.1.symm, if_neg hn.2.2.symm] at h
    omega
  · rintro (rfl | rfl | rfl)
    · rw [if_pos rfl]; omega
    · rw [if_pos rfl]; omega
    · rw [if_pos rfl]; omega

/-- The position is on the boundary of the rectangle. -/
def OnBorder (sx sy : ℕ) (h : ℕ × ℕ) : Prop := h.1 = 0 ∨ h.1 = 2 * sx ∨ h.2 = 0 ∨ h.2 = 2 * sy

/-- Boundary faces are sides of outer cells. -/
theorem outer_of_boundaryFace {sx sy : ℕ} (hx : 1 ≤ sx) (hy : 1 ≤ sy) {f : Multiset ℕ}
    (hf : BoundaryFace ((triangleNumbers sx sy).map (rowOf sx sy)) f) :
    ∃ i j n, i < sx ∧ j < sy ∧ n < 4 ∧
      ((n = 0 ∧ j = 0) ∨ (n = 1 ∧ i + 1 = sx) ∨ (n = 2 ∧ j + 1 = sy) ∨ (n = 3 ∧ i = 0)) ∧
      f = {halfIndex sx sy (halfRow i j n).1, halfIndex sx sy (halfRow i j n).2.1} := by
  have hpos : ∃ x ∈ triangleNumbers sx sy, 1 ≤ rowCount (halfIndex sx sy (halfRow x.1.1 x.1.2 x.2).1)
          (halfIndex sx sy (halfRow x.1.1 x.1.2 x.2).2.1)
          (halfIndex sx sy (halfRow x.1.1 x.1.2 x.2).2.2) f := by
    by_contra hn
    push Not at hn
    have h1 := hf
    unfold BoundaryFace at h1
    rw [count_crossFaces hx hy, List.sum_eq_zero] at h1
    · omega
    · intro a ha
      obtain ⟨x, hxm, rfl⟩ := List.mem_map.1 ha
      have := hn x hxm
      omega
  obtain ⟨x, hxm, hpos⟩ := hpos
  obtain ⟨⟨i, j⟩, n⟩ := x
  have two : ∀ y ∈ triangleNumbers sx sy, ((i, j), n) ≠ y →
      1 ≤ rowCount (halfIndex sx sy (halfRow y.1.1 y.1.2 y.2).1)
          (halfIndex sx sy (halfRow y.1.1 y.1.2 y.2).2.1)
          (halfIndex sx sy (halfRow y.1.1 y.1.2 y.2).2.2) f → False := by
    intro y hym hne h
    exact not_boundaryFace_of_two hx hy hxm hym hne (by rintro z (rfl | rfl) <;> assumption) hf
  obtain ⟨h1, h2, h3⟩ := (mem_triangleNumbers _).1 hxm
  obtain ⟨g1, g2, g3⟩ := halfRow_onGrid hxm
  simp only at h1 h2 h3 hpos g1 g2 g3
  rw [rowCount_pos] at hpos
  have mem : ∀ a b c, a < sx → b < sy → c < 4 → ((a, b), c) ∈ triangleNumbers sx sy :=
    fun a b c ha hb hc => (mem_triangleNumbers _).2 ⟨ha, hb, hc⟩
  rcases hpos with rfl | rfl | hpos
  · exfalso
    refine two ((i, j), (n + 1) % 4) (mem _ _ _ h1 h2 (by omega)) (by simp; omega) ?_
    rw [rowCount_pos]
    interval_cases n <;> simp [halfRow]
  · exfalso
    refine two ((i, j), (n + 3) % 4) (mem _ _ _ h1 h2 (by omega)) (by simp; omega) ?_
    rw [rowCount_pos]
    interval_cases n <;> simp [halfRow]
  · refine ⟨i, j, n, h1, h2, h3, ?_, hpos⟩
    subst hpos
    interval_cases n
    · by_cases hj : j = 0
      · simp [hj]
      · exfalso
        obtain ⟨j, rfl⟩ : ∃ k, j = k + 1 := ⟨j - 1, by omega⟩
        refine two ((i, j), 2) (mem _ _ _ h1 (by omega) (by omega)) (by simp) ?_
        rw [rowCount_pos]
        exact Or.inr (Or.inr (Multiset.pair_comm _ _))
    · by_cases hi : i + 1 = sx
      · simp [hi]
      · exfalso
        refine two ((i + 1, j), 3) (mem _ _ _ (by omega) h2 (by omega)) (by simp) ?_
        rw [rowCount_pos]
        exact Or.inr (Or.inr (Multiset.pair_comm _ _))
    · by_cases hj : j + 1 = sy
      · simp [hj]
      · exfalso
        refine two ((i, j + 1), 0) (mem _ _ _ h1 (by omega) (by omega)) (by simp) ?_
        rw [rowCount_pos]
        exact Or.inr (Or.inr (Multiset.pair_comm _ _))
    · by_cases hi : i = 0
      · simp [hi]
      · exfalso
        obtain ⟨i, rfl⟩ : ∃ k, i = k + 1 := ⟨i - 1, by omega⟩
        refine two ((i, j), 1) (mem _ _ _ (by omega) h2 (by omega)) (by simp) ?_
        rw [rowCount_pos]
        exact Or.inr (Or.inr (Multiset.pair_comm _ _))

/-- The nodes of boundary faces are on the boundary of the rectangle. -/
theorem border_of_boundaryFace {sx sy : ℕ} (hx : 1 ≤ sx) (hy : 1 ≤ sy) {f : Multiset ℕ}
    (hf : BoundaryFace ((triangleNumbers sx sy).map (rowOf sx sy)) f) :
    ∃ p q, OnGrid sx sy p ∧ OnGrid sx sy q ∧ OnBorder sx sy p ∧ OnBorder sx sy q ∧
      f = {halfIndex sx sy p, halfIndex sx sy q} := by
  obtain ⟨i, j, n, hi, hj, hn, ho, rfl⟩ := outer_of_boundaryFace hx hy hf
  obtain ⟨g1, g2, -⟩ := halfRow_onGrid ((mem_triangleNumbers ((i, j), n)).2 ⟨hi, hj, hn⟩)
  refine ⟨_, _, g1, g2, ?_, ?_, rfl⟩ <;>
  rcases ho with ⟨rfl, rfl⟩ | ⟨rfl, rfl⟩ | ⟨rfl, rfl⟩ | ⟨rfl, rfl⟩ <;> simp [halfRow, OnBorder]

/-- The sides of the outer cells are boundary faces. -/
theorem boundaryFace_outer {sx sy : ℕ} (hx : 1 ≤ sx) (hy : 1 ≤ sy) {i j n : ℕ} (hi : i < sx)
    (hj : j < sy) (hn : n < 4)
    (hout : (n = 0 ∧ j = 0) ∨ (n = 1 ∧ i + 1 = sx) ∨ (n = 2 ∧ j + 1 = sy) ∨ (n = 3 ∧ i = 0)) :
    BoundaryFace ((triangleNumbers sx sy).map (rowOf sx sy))
      {halfIndex sx sy (halfRow i j n).1, halfIndex sx sy (halfRow i j n).2.1} := by
  have h0 : ((i, j), n) ∈ triangleNumbers sx sy := (mem_triangleNumbers _).2 ⟨hi, hj, hn⟩
  refine boundaryFace_of_single hx hy h0 fun x hxm => ?_
  obtain ⟨g1, g2, g3⟩ := halfRow_onGrid hxm
  obtain ⟨k1, k2, k3⟩ := halfRow_onGrid h0
  obtain ⟨⟨i', j'⟩, n'⟩ := x
  obtain ⟨h1, h2, h3⟩ := (mem_triangleNumbers _).1 hxm
  simp only at h1 h2 h3 g1 g2 g3 k1 k2 k3 ⊢
  unfold rowCount
  simp only [pair_eq_iff hx hy g2 g3 k1 k2, pair_eq_iff hx hy g1 g3 k1 k2,
    pair_eq_iff hx hy g1 g2 k1 k2]
  clear g1 g2 g3 k1 k2 k3 h0 hxm
  have parity : ∀ a b c d : ℕ, ¬ ((2 * a + 1, 2 * b + 1) : ℕ × ℕ) = (2 * c, 2 * d) := by
    intro a b c d h
    simp only [Prod.mk.injEq] at h
    omega
  have even : ∀ i j n : ℕ, ∃ a b c d, (halfRow i j n).1 = (2 * a, 2 * b) ∧
      (halfRow i j n).2.1 = (2 * c, 2 * d) := by
    intro i j n
    match n with
    | 0 => exact ⟨_, _, _, _, rfl, rfl⟩
    | 1 => exact ⟨_, _, _, _, rfl, rfl⟩
    | 2 => exact ⟨_, _, _, _, rfl, rfl⟩
    | _ + 3 => exact ⟨_, _, _, _, rfl, rfl⟩
  have centre : (halfRow i' j' n').2.2 = (2 * i' + 1, 2 * j' + 1) := by
    match n' with
    | 0 => rfl
    | 1 => rfl
    | 2 => rfl
    | _ + 3 => rfl
  obtain ⟨a, b, c, d, e1, e2⟩ := even i j n
  rw [if_neg, if_neg, zero_add, zero_add]
  · refine if_congr ?_ rfl rfl
    simp only [Prod.mk.injEq]
    rcases hout with ⟨rfl, rfl⟩ | ⟨rfl, rfl⟩ | ⟨rfl, rfl⟩ | ⟨rfl, rfl⟩ <;> interval_cases n' <;>
      simp only [halfRow, Prod.mk.injEq, and_true] <;> omega
  · rw [centre, e1, e2]
    rintro (⟨-, h⟩ | ⟨-, h⟩) <;> exact parity _ _ _ _ h
  · rw [centre, e1, e2]
    rintro (⟨-, h⟩ | ⟨-, h⟩) <;> exact parity _ _ _ _ h

/-- The nodes of the cross mesh that the code takes for boundary nodes. -/
theorem boundaryNode_cross {sx sy : ℕ} (hx : 1 ≤ sx) (hy : 1 ≤ sy) {h : ℕ × ℕ} (hh : OnGrid sx sy h) :
    BoundaryNode ((triangleNumbers sx sy).map (rowOf sx sy)) (halfIndex sx sy h) ↔
      OnBorder sx sy h := by
  constructor
  · rintro ⟨f, hf, hm⟩
    obtain ⟨p, q, gp, gq, bp, bq, rfl⟩ := border_of_boundaryFace hx hy hf
    simp only [Multiset.insert_eq_cons, Multiset.mem_cons, Multiset.mem_singleton,
      halfIndex_inj hx hy hh] at hm
    rcases hm with rfl | rfl <;> assumption
  · obtain ⟨a, b⟩ := h
    obtain ⟨h1, h2, h3⟩ := hh
    simp only at h1 h2 h3
    have key : ∀ i j n, i < sx → j < sy → n < 4 →
        ((n = 0 ∧ j = 0) ∨ (n = 1 ∧ i + 1 = sx) ∨ (n = 2 ∧ j + 1 = sy) ∨ (n = 3 ∧ i = 0)) →
        ((halfRow i j n).1 = (a, b) ∨ (halfRow i j n).2.1 = (a, b)) →
        BoundaryNode ((triangleNumbers sx sy).map (rowOf sx sy)) (halfIndex sx sy (a, b)) := by
      intro i j n hi hj hn ho hab
      refine ⟨_, boundaryFace_outer hx hy hi hj hn ho, ?_⟩
      rcases hab with hab | hab <;> rw [hab] <;> simp
    intro hb
    simp only [OnBorder] at hb
    rcases hb with rfl | rfl | rfl | rfl
    · by_cases hb : b = 0
      · subst hb
        exact key 0 0 0 (by omega) (by omega) (by omega) (by omega) (Or.inl rfl)
      · refine key 0 (b / 2 - 1) 3 (by omega) (by omega) (by omega) (by omega) (Or.inl ?_)
        simp only [halfRow, Prod.mk.injEq, true_and, and_true]; omega
    · by_cases hb : b = 0
      · subst hb
        refine key (sx - 1) 0 0 (by omega) (by omega) (by omega) (by omega) (Or.inr ?_)
        simp only [halfRow, Prod.mk.injEq, true_and, and_true]; omega
      · refine key (sx - 1) (b / 2 - 1) 1 (by omega) (by omega) (by omega) (by omega) (Or.inr ?_)
        simp only [halfRow, Prod.mk.injEq, true_and, and_true]; omega
    · by_cases ha : a = 0
      · subst ha
        exact key 0 0 0 (by omega) (by omega) (by omega) (by omega) (Or.inl rfl)
      · refine key (a / 2 - 1) 0 0 (by omega) (by omega) (by omega) (by omega) (Or.inr ?_)
        simp only [halfRow, Prod.mk.injEq, true_and, and_true]; omega
    · by_cases ha : a = 0
      · subst ha
        refine key 0 (sy - 1) 2 (by omega) (by omega) (by omega) (by omega) (Or.inr ?_)
        simp only [halfRow, Prod.mk.injEq, true_and, and_true]; omega
      · refine key (a / 2 - 1) (sy - 1) 2 (by omega) (by omega) (by omega) (by omega) (Or.inl ?_)
        simp only [halfRow, Prod.mk.injEq, true_and, and_true]; omega

end Conmech
