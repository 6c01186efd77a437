import Mathlib.Algebra.Order.Ring.Rat
import Mathlib.Data.Rat.Floor
import Mathlib.Tactic.Positivity
import Verif.Lemmas.MeshZoo
/-
C52 the cross mesh is well formed, C54 mesh placement, C70 the bound on the size of elements.
-/
namespace Conmech

variable {K : Type} [Field K] [LinearOrder K] [IsStrictOrderedRing K]

section C52

/-- C52 for given numbers of cells and cell lengths: the mesh has the advertised numbers of nodes and
elements, the nodes are exactly the corners and centres of the cells, each once, and the elements are
triangles that tile the rectangle. Missing for the full property: cells shorter than the tolerance
1/10000 of the search for nodes, for which it is false. -/
theorem C52_cells_partial {sx sy : ℕ} (hsx : 1 ≤ sx) (hsy : 1 ≤ sy) {ex ey : K}
    (hex : 1 / 10000 ≤ ex) (hey : 1 / 10000 ≤ ey) :
    ∃ elements triangles,
      crossElements sx sy ex ey (crossNodes sx sy ex ey) = some elements ∧
      (crossNodes sx sy ex ey).length = 2 * (sx * sy) + (sx + sy) + 1 ∧
      (crossNodes sx sy ex ey).Nodup ∧
      (∀ p : K × K, p ∈ crossNodes sx sy ex ey ↔
        (∃ i j : ℕ, i ≤ sx ∧ j ≤ sy ∧ p = (i * ex, j * ey)) ∨
        (∃ i j : ℕ, i < sx ∧ j < sy ∧ p = ((i + 1 / 2) * ex, (j + 1 / 2) * ey))) ∧
      elements.length = 4 * (sx * sy) ∧
      List.Forall₂ (Spec.HasCorners (crossNodes sx sy ex ey)) elements triangles ∧
      Spec.Tiles triangles (sx * ex) (sy * ey) := by
  have hex0 : 0 < ex := lt_of_lt_of_le (by norm_num) hex
  have hey0 : 0 < ey := lt_of_lt_of_le (by norm_num) hey
  obtain ⟨es, h1, h2⟩ := crossElements_corners (sx := sx) (sy := sy) hex hey
  refine ⟨es, _, h1, ?_, ?_, ?_, ?_, h2, crossTriangles_tiles hsx hsy hex0 hey0⟩
  · rw [crossNodes_eq hsx hsy, List.length_map, length_halfWrites hsx hsy, crossNodesCount]
  · rw [crossNodes_eq hsx hsy]
    refine List.Nodup.map_on ?_ (nodup_halfWrites hsx hsy)
    intro g hg h hh heq
    refine halfPoint_separated hex hey (by norm_num) ((mem_halfWrites hsx hsy g).mp hg).2.2
      ((mem_halfWrites hsx hsy h).mp hh).2.2 ?_
    rw [heq]; simp
  · intro p
    have e1 : ∀ i : ℕ, ((2 * i : ℕ) : K) / 2 = (i : K) := fun i => by push_cast; field_simp
    have e2 : ∀ i : ℕ, ((2 * i + 1 : ℕ) : K) / 2 = (i : K) + 1 / 2 := fun i => by
      push_cast; field_simp
    rw [crossNodes_eq hsx hsy, List.mem_map]
    constructor
    · rintro ⟨⟨a, b⟩, hab, rfl⟩
      obtain ⟨g1, g2, g3⟩ := (mem_halfWrites hsx hsy _).mp hab
      simp only at g1 g2 g3
      by_cases hodd : a % 2 = 1
      · refine Or.inr ⟨a / 2, b / 2, by omega, by omega, ?_⟩
        have ha : a = 2 * (a / 2) + 1 := by omega
        have hb : b = 2 * (b / 2) + 1 := by omega
        simp only [halfPoint]
        rw [← e2, ← e2, ← ha, ← hb]
      · refine Or.inl ⟨a / 2, b / 2, by omega, by omega, ?_⟩
        have ha : a = 2 * (a / 2) := by omega
        have hb : b = 2 * (b / 2) := by omega
        simp only [halfPoint]
        rw [← e1 (a / 2), ← e1 (b / 2), ← ha, ← hb]
    · rintro (⟨i, j, hi, hj, rfl⟩ | ⟨i, j, hi, hj, rfl⟩)
      · refine ⟨(2 * i, 2 * j), (mem_halfWrites hsx hsy _).mpr ⟨?_, ?_, ?_⟩, ?_⟩
        · simp only; omega
        · simp only; omega
        · simp
        · simp only [halfPoint, e1]
      · refine ⟨(2 * i + 1, 2 * j + 1), (mem_halfWrites hsx hsy _).mpr ⟨?_, ?_, ?_⟩, ?_⟩
        · simp only; omega
        · simp only; omega
        · simp
        · simp only [halfPoint, e2]
  · rw [h2.length_eq, length_crossTriangles, crossElementsCount]

/-- C52: no node lies in a triangle without being one of its corners, so neighbouring triangles share
whole sides. -/
theorem C52_conforming_partial {sx sy : ℕ} (hsx : 1 ≤ sx) (hsy : 1 ≤ sy) {ex ey : K}
    (hex : 1 / 10000 ≤ ex) (hey : 1 / 10000 ≤ ey) :
    ∃ elements triangles,
      crossElements sx sy ex ey (crossNodes sx sy ex ey) = some elements ∧
      List.Forall₂ (Spec.HasCorners (crossNodes sx sy ex ey)) elements triangles ∧
      ∀ t ∈ triangles, ∀ p ∈ crossNodes sx sy ex ey, Spec.InTriangle t p →
        p = t.1 ∨ p = t.2.1 ∨ p = t.2.2 := by
  have hex0 : 0 < ex := lt_of_lt_of_le (by norm_num) hex
  have hey0 : 0 < ey := lt_of_lt_of_le (by norm_num) hey
  obtain ⟨es, h1, h2⟩ := crossElements_corners (sx := sx) (sy := sy) hex hey
  refine ⟨es, _, h1, h2, ?_⟩
  intro t ht p hp hin
  obtain ⟨ij, -, h4⟩ := List.mem_flatMap.mp ht
  obtain ⟨n, hn⟩ := List.mem_iff_getElem?.mp h4
  rw [crossNodes_eq hsx hsy, List.mem_map] at hp
  obtain ⟨h, hh, rfl⟩ := hp
  exact cell_conforming hex0 hey0 ((mem_halfWrites hsx hsy h).mp hh).2.2 hn hin

theorem crossSize_pos [FloorSemiring K] {scale perimeter : K} (hs : 0 < scale)
    (hp : 0 < perimeter) : 1 ≤ crossSize scale perimeter :=
  Nat.one_le_iff_ne_zero.mpr (Nat.ceil_pos.mpr (div_pos hs hp)).ne'

/-- The cells are not shorter than the tolerance and fill the length. -/
theorem crossSize_tolerance [FloorSemiring K] {perimeter scale : K} (hp : 0 < perimeter)
    (h0 : 0 < scale) (htol : 1 / 10000 ≤ perimeter / 2) (h1 : 1 / 10000 ≤ scale) :
    1 / 10000 ≤ scale / (crossSize scale perimeter : K) ∧
      (crossSize scale perimeter : K) * (scale / (crossSize scale perimeter : K)) = scale := by
  have hsz := crossSize_pos h0 hp
  have hpos : (0 : K) < crossSize scale perimeter := by exact_mod_cast hsz
  refine ⟨?_, by field_simp⟩
  rw [le_div_iff₀ hpos]
  rcases Nat.eq_or_lt_of_le hsz with heq | hlt
  · rw [← heq]; simpa using h1
  · have hc : (crossSize scale perimeter : K) < scale / perimeter + 1 :=
      Nat.ceil_lt_add_one (div_pos h0 hp).le
    have h2 : (2 : K) ≤ crossSize scale perimeter := by exact_mod_cast hlt
    have h3 : (1 : K) < scale / perimeter := by linarith
    have h4 : perimeter < scale := by rwa [lt_div_iff₀ hp, one_mul] at h3
    have h5 : (crossSize scale perimeter : K) * (perimeter / 2) ≤ scale := by
      have : (scale / perimeter + 1) * (perimeter / 2) = scale / 2 + perimeter / 2 := by
        field_simp
      nlinarith
    nlinarith

/-- C52: for every description with positive sizes whose cells are not shorter than the tolerance, the
elements tile the rectangle that was asked for. -/
theorem C52_mesh_partial [FloorSemiring K] {perimeter width height : K} (hp : 0 < perimeter)
    (hw : 0 < width) (hh : 0 < height) (htol : 1 / 10000 ≤ perimeter / 2)
    (hw' : 1 / 10000 ≤ width) (hh' : 1 / 10000 ≤ height) :
    ∃ nodes elements triangles, crossMesh perimeter width height = some (nodes, elements) ∧
      nodes.length = 2 * (⌈width / perimeter⌉₊ * ⌈height / perimeter⌉₊) +
        (⌈width / perimeter⌉₊ + ⌈height / perimeter⌉₊) + 1 ∧
      nodes.Nodup ∧
      elements.length = 4 * (⌈width / perimeter⌉₊ * ⌈height / perimeter⌉₊) ∧
      List.Forall₂ (Spec.HasCorners nodes) elements triangles ∧
      Spec.Tiles triangles width height := by
  obtain ⟨w1, w2⟩ := crossSize_tolerance hp hw htol hw'
  obtain ⟨h1, h2⟩ := crossSize_tolerance hp hh htol hh'
  obtain ⟨es, ts, a1, a2, a3, -, a4, a5, a6⟩ :=
    C52_cells_partial (crossSize_pos hw hp) (crossSize_pos hh hp) w1 h1
  refine ⟨_, es, ts, ?_, a2, a3, a4, a5, ?_⟩
  · simp only [crossMesh, a1, Option.bind_eq_bind, Option.bind_some]
  · rwa [w2, h2] at a6

example : (crossMesh (1 / 2 : ℚ) 1 (1 / 2)).map (fun m => (m.1.length, m.2)) = some (8,
    [(6, 5, 1), (5, 2, 1), (2, 7, 1), (7, 6, 1), (5, 4, 0), (4, 3, 0), (3, 2, 0), (2, 5, 0)]) := by
  decide +kernel

/-- C52: with cells shorter than the tolerance, elements are degenerate: all their corners are the
first node of the mesh. -/
theorem C52_fine_wrong :
    crossMesh (1 / 100000 : ℚ) (1 / 100000) (1 / 100000) =
      some (crossNodes 1 1 (1 / 100000) (1 / 100000),
        [(0, 0, 0), (0, 0, 0), (0, 0, 0), (0, 0, 0)]) ∧
    (crossNodes 1 1 (1 / 100000 : ℚ) (1 / 100000)).Nodup := by
  decide +kernel

end C52

section C70

/-- `a` is the distance of two points. -/
def Spec.Distance (p q : K × K) (a : K) : Prop :=
  0 ≤ a ∧ a ^ 2 = (p.1 - q.1) ^ 2 + (p.2 - q.2) ^ 2

/-- The sides of the elements of a cross mesh. -/
theorem crossTriangles_sides {sx sy : ℕ} {ex ey : K} (hex : 0 < ex) (hey : 0 < ey)
    {t : (K × K) × (K × K) × (K × K)} (ht : t ∈ crossTriangles sx sy ex ey) {a b c : K}
    (ha : Spec.Distance t.1 t.2.1 a) (hb : Spec.Distance t.2.1 t.2.2 b)
    (hc : Spec.Distance t.2.2 t.1 c) :
    (a = ex ∨ a = ey) ∧ b ^ 2 = (ex ^ 2 + ey ^ 2) / 4 ∧ c ^ 2 = (ex ^ 2 + ey ^ 2) / 4 := by
  obtain ⟨⟨i, j⟩, -, h⟩ := List.mem_flatMap.mp ht
  simp only [cellTriangles, List.mem_cons, List.not_mem_nil, or_false] at h
  obtain ⟨ha0, ha⟩ := ha
  obtain ⟨hb0, hb⟩ := hb
  obtain ⟨hc0, hc⟩ := hc
  rcases h with rfl | rfl | rfl | rfl <;> simp only at ha hb hc
  · refine ⟨Or.inl ((sq_eq_sq₀ ha0 hex.le).mp (by rw [ha]; ring)), by rw [hb]; ring,
      by rw [hc]; ring⟩
  · refine ⟨Or.inr ((sq_eq_sq₀ ha0 hey.le).mp (by rw [ha]; ring)), by rw [hb]; ring,
      by rw [hc]; ring⟩
  · refine ⟨Or.inl ((sq_eq_sq₀ ha0 hex.le).mp (by rw [ha]; ring)), by rw [hb]; ring,
      by rw [hc]; ring⟩
  · refine ⟨Or.inr ((sq_eq_sq₀ ha0 hey.le).mp (by rw [ha]; ring)), by rw [hb]; ring,
      by rw [hc]; ring⟩

/-- A cell is not longer than `max_element_perimeter`. -/
theorem crossSize_edge [FloorSemiring K] {scale perimeter : K} (hs : 0 < scale)
    (hp : 0 < perimeter) :
    0 < scale / (crossSize scale perimeter : K) ∧
      scale / (crossSize scale perimeter : K) ≤ perimeter := by
  have hsz := crossSize_pos hs hp
  have hpos : (0 : K) < crossSize scale perimeter := by exact_mod_cast hsz
  refine ⟨div_pos hs hpos, ?_⟩
  rw [div_le_iff₀ hpos]
  have : scale / perimeter ≤ crossSize scale perimeter := Nat.le_ceil _
  rw [div_le_iff₀ hp] at this
  linarith

theorem forall₂_left {α β : Type} {R : α → β → Prop} {l : List α} {m : List β}
    (h : List.Forall₂ R l m) : ∀ a ∈ l, ∃ b ∈ m, R a b := by
  induction h with
  | nil => simp
  | cons h1 _ ih =>
    intro a ha
    rcases List.mem_cons.mp ha with rfl | ha
    · exact ⟨_, by simp, h1⟩
    · obtain ⟨b, hb, h⟩ := ih a ha
      exact ⟨b, List.mem_cons_of_mem _ hb, h⟩

/-- C70: no side of an element is longer than `max_element_perimeter`. Missing for the full property:
the bound holds for the sides, not for the perimeter, for which it is false. -/
theorem C70_sides_partial [FloorSemiring K] {perimeter width height : K} (hp : 0 < perimeter)
    (hw : 0 < width) (hh : 0 < height) (htol : 1 / 10000 ≤ perimeter / 2)
    (hw' : 1 / 10000 ≤ width) (hh' : 1 / 10000 ≤ height) :
    ∃ nodes elements, crossMesh perimeter width height = some (nodes, elements) ∧
      ∀ e ∈ elements, ∃ t, Spec.HasCorners nodes e t ∧ ∀ a b c,
        Spec.Distance t.1 t.2.1 a → Spec.Distance t.2.1 t.2.2 b → Spec.Distance t.2.2 t.1 c →
        a ≤ perimeter ∧ b ≤ perimeter ∧ c ≤ perimeter := by
  obtain ⟨w1, -⟩ := crossSize_tolerance hp hw htol hw'
  obtain ⟨h1, -⟩ := crossSize_tolerance hp hh htol hh'
  obtain ⟨es, g1, g2⟩ := crossElements_corners (sx := crossSize width perimeter)
    (sy := crossSize height perimeter) w1 h1
  obtain ⟨x1, x2⟩ := crossSize_edge hw hp
  obtain ⟨y1, y2⟩ := crossSize_edge hh hp
  refine ⟨_, es, by
    simp only [crossMesh, g1, Option.bind_eq_bind, Option.bind_some]; rfl, ?_⟩
  intro e he
  obtain ⟨t, ht, hcorners⟩ := forall₂_left g2 e he
  refine ⟨t, hcorners, ?_⟩
  intro a b c ha hb hc
  obtain ⟨s1, s2, s3⟩ := crossTriangles_sides x1 y1 ht ha hb hc
  have hx2 := pow_le_pow_left₀ x1.le x2 2
  have hy2 := pow_le_pow_left₀ y1.le y2 2
  have hp2 : 0 < perimeter ^ 2 := by positivity
  refine ⟨?_, ?_, ?_⟩
  · rcases s1 with rfl | rfl <;> assumption
  · exact le_of_sq_le_sq (by rw [s2]; linarith) hp.le
  · exact le_of_sq_le_sq (by rw [s3]; linarith) hp.le

/-- C70: if the sizes of the rectangle are multiples of `max_element_perimeter`, the perimeter of
every element is at least twice as large. -/
theorem C70_perimeter_wrong [FloorSemiring K] {perimeter : K} {m n : ℕ} (hp : 0 < perimeter)
    (hm : 1 ≤ m) (hn : 1 ≤ n) (htol : 1 / 10000 ≤ perimeter) :
    ∃ nodes elements, crossMesh perimeter (m * perimeter) (n * perimeter) = some (nodes, elements) ∧
      elements ≠ [] ∧
      ∀ e ∈ elements, ∃ t, Spec.HasCorners nodes e t ∧ ∀ a b c,
        Spec.Distance t.1 t.2.1 a → Spec.Distance t.2.1 t.2.2 b → Spec.Distance t.2.2 t.1 c →
        2 * perimeter ≤ a + b + c := by
  have size : ∀ k : ℕ, crossSize ((k : K) * perimeter) perimeter = k := by
    intro k
    unfold crossSize
    rw [mul_div_assoc, div_self hp.ne', mul_one, Nat.ceil_natCast]
  have cell : ∀ k : ℕ, 1 ≤ k → (k : K) * perimeter / (k : K) = perimeter := by
    intro k hk
    have : (k : K) ≠ 0 := by exact_mod_cast (by omega : k ≠ 0)
    field_simp
  obtain ⟨es, g1, g2⟩ := crossElements_corners (sx := m) (sy := n) htol htol
  refine ⟨_, es, by simp only [crossMesh, size, cell m hm, cell n hn, g1, Option.bind_eq_bind,
    Option.bind_some]; rfl, ?_, ?_⟩
  · intro h
    have := g2.length_eq
    rw [h, length_crossTriangles, crossElementsCount] at this
    simp only [List.length_nil] at this
    have hmn : 0 < m * n := Nat.mul_pos hm hn
    omega
  · intro e he
    obtain ⟨t, ht, hcorners⟩ := forall₂_left g2 e he
    refine ⟨t, hcorners, ?_⟩
    intro a b c ha hb hc
    obtain ⟨s1, s2, s3⟩ := crossTriangles_sides hp hp ht ha hb hc
    have s1' : a = perimeter := by rcases s1 with h | h <;> exact h
    have hb2 : perimeter / 2 ≤ b := le_of_sq_le_sq (by rw [s2]; nlinarith [sq_nonneg perimeter]) hb.1
    have hc2 : perimeter / 2 ≤ c := le_of_sq_le_sq (by rw [s3]; nlinarith [sq_nonneg perimeter]) hc.1
    linarith

/-- The triangle (0, 0), (4, 0), (4, 3) has the sides 4, 3, 5. -/
example : Spec.Distance ((0 : ℚ), (0 : ℚ)) (4, 0) 4 ∧ Spec.Distance ((4 : ℚ), (3 : ℚ)) (0, 0) 5 := by
  constructor <;> constructor <;> norm_num

end C70

section C54

omit [IsStrictOrderedRing K] in
theorem columnMin_spec (first : ℕ → K) (rest : List (ℕ → K)) (c : ℕ) :
    (∃ row ∈ first :: rest, row c = columnMin first rest c) ∧
      ∀ row ∈ first :: rest, columnMin first rest c ≤ row c := by
  unfold columnMin
  have key : ∀ (l : List (ℕ → K)) (m : K),
      (l.foldl (fun m row => min m (row c)) m = m ∨
        ∃ row ∈ l, row c = l.foldl (fun m row => min m (row c)) m) ∧
      l.foldl (fun m row => min m (row c)) m ≤ m ∧
      ∀ row ∈ l, l.foldl (fun m row => min m (row c)) m ≤ row c := by
    intro l
    induction l with
    | nil => intro m; simp
    | cons r l ih =>
      intro m
      obtain ⟨h1, h2, h3⟩ := ih (min m (r c))
      simp only [List.foldl_cons, List.mem_cons, forall_eq_or_imp]
      refine ⟨?_, h2.trans (min_le_left _ _), h2.trans (min_le_right _ _), h3⟩
      rcases h1 with h1 | ⟨row, h4, h5⟩
      · rcases min_choice m (r c) with h | h
        · exact Or.inl (h1.trans h)
        · exact Or.inr ⟨r, Or.inl rfl, (h1.trans h).symm⟩
      · exact Or.inr ⟨row, Or.inr h4, h5⟩
  obtain ⟨h1, h2, h3⟩ := key rest (first c)
  constructor
  · rcases h1 with h1 | ⟨row, h4, h5⟩
    · exact ⟨first, by simp, h1.symm⟩
    · exact ⟨row, by simp [h4], h5⟩
  · intro row hrow
    rcases List.mem_cons.mp hrow with rfl | hrow
    · exact h2
    · exact h3 row hrow

omit [IsStrictOrderedRing K] in
theorem columnMax_spec (first : ℕ → K) (rest : List (ℕ → K)) (c : ℕ) :
    (∃ row ∈ first :: rest, row c = columnMax first rest c) ∧
      ∀ row ∈ first :: rest, row c ≤ columnMax first rest c := by
  unfold columnMax
  have key : ∀ (l : List (ℕ → K)) (m : K),
      (l.foldl (fun m row => max m (row c)) m = m ∨
        ∃ row ∈ l, row c = l.foldl (fun m row => max m (row c)) m) ∧
      m ≤ l.foldl (fun m row => max m (row c)) m ∧
      ∀ row ∈ l, row c ≤ l.foldl (fun m row => max m (row c)) m := by
    intro l
    induction l with
    | nil => intro m; simp
    | cons r l ih =>
      intro m
      obtain ⟨h1, h2, h3⟩ := ih (max m (r c))
      simp only [List.foldl_cons, List.mem_cons, forall_eq_or_imp]
      refine ⟨?_, (le_max_left _ _).trans h2, (le_max_right _ _).trans h2, h3⟩
      rcases h1 with h1 | ⟨row, h4, h5⟩
      · rcases max_choice m (r c) with h | h
        · exact Or.inl (h1.trans h)
        · exact Or.inr ⟨r, Or.inl rfl, (h1.trans h).symm⟩
      · exact Or.inr ⟨row, Or.inr h4, h5⟩
  obtain ⟨h1, h2, h3⟩ := key rest (first c)
  constructor
  · rcases h1 with h1 | ⟨row, h4, h5⟩
    · exact ⟨first, by simp, h1.symm⟩
    · exact ⟨row, by simp [h4], h5⟩
  · intro row hrow
    rcases List.mem_cons.mp hrow with rfl | hrow
    · exact h2
    · exact h3 row hrow

/-- C54: translation keeps the differences of nodes and puts the minimum of every coordinate at the
position. -/
theorem C54_translate (nodes : List (ℕ → K)) (position : ℕ → K) (hne : nodes ≠ []) :
    ∃ moved, translateNodes nodes (some position) = some moved ∧
      moved.length = nodes.length ∧
      (∀ (i j : ℕ) (hi : i < nodes.length) (hj : j < nodes.length), ∃ p q,
        moved[i]? = some p ∧ moved[j]? = some q ∧
          ∀ c, p c - q c = nodes[i] c - nodes[j] c) ∧
      ∀ c, (∃ row ∈ moved, row c = position c) ∧ ∀ row ∈ moved, position c ≤ row c := by
  obtain ⟨first, rest, rfl⟩ := List.exists_cons_of_ne_nil hne
  refine ⟨_, rfl, by simp, ?_, ?_⟩
  · intro i j hi hj
    refine ⟨_, _, by rw [List.getElem?_map, List.getElem?_map, List.getElem?_eq_getElem hi]; rfl,
      by rw [List.getElem?_map, List.getElem?_map, List.getElem?_eq_getElem hj]; rfl, ?_⟩
    intro c
    ring
  · intro c
    obtain ⟨⟨row, h1, h2⟩, h3⟩ := columnMin_spec first rest c
    simp only [List.map_map, List.mem_map, exists_exists_and_eq_and, forall_exists_index, and_imp,
      forall_apply_eq_imp_iff₂, Function.comp]
    refine ⟨⟨row, h1, by rw [h2]; ring⟩, ?_⟩
    intro r hr
    have := h3 r hr
    linarith

omit [IsStrictOrderedRing K] in
/-- C54: without a position the nodes stay as they are. -/
theorem C54_no_position (nodes : List (ℕ → K)) : translateNodes nodes none = some nodes := rfl

/-- C54: in every coordinate in which the nodes are not all equal, normalisation maps the nodes onto
the unit interval, touching both ends, by a map that keeps the ratios of differences. -/
theorem C54_normalize (nodes : List (ℕ → K)) (hne : nodes ≠ []) :
    ∃ normal, normalizeNodes nodes = some normal ∧ normal.length = nodes.length ∧
      ∀ c, (∃ p ∈ nodes, ∃ q ∈ nodes, p c ≠ q c) →
        (∀ row ∈ normal, 0 ≤ row c ∧ row c ≤ 1) ∧ (∃ row ∈ normal, row c = 0) ∧
        (∃ row ∈ normal, row c = 1) ∧
        ∃ size : K, 0 < size ∧ ∀ (i j : ℕ) (hi : i < nodes.length) (hj : j < nodes.length), ∃ p q,
          normal[i]? = some p ∧ normal[j]? = some q ∧
            (p c - q c) * size = nodes[i] c - nodes[j] c := by
  obtain ⟨first, rest, rfl⟩ := List.exists_cons_of_ne_nil hne
  let lowest := columnMin first rest
  let first' : ℕ → K := fun c => first c - lowest c
  let rest' : List (ℕ → K) := rest.map fun row c => row c - lowest c
  refine ⟨(first' :: rest').map fun row c => row c / columnMax first' rest' c, rfl,
    by simp [rest'], ?_⟩
  intro c ⟨p, hp, q, hq, hpq⟩
  obtain ⟨⟨low, hl1, hl2⟩, hlow⟩ := columnMin_spec first rest c
  obtain ⟨⟨high, hh1, hh2⟩, hhigh⟩ := columnMax_spec first' rest' c
  have hmem : ∀ row ∈ first :: rest, (fun c => row c - lowest c) ∈ first' :: rest' := by
    intro row hrow
    rcases List.mem_cons.mp hrow with rfl | hrow
    · simp [first']
    · exact List.mem_cons_of_mem _ (List.mem_map_of_mem (f := fun row c => row c - lowest c) hrow)
  have hmem' : ∀ row ∈ first' :: rest', ∃ r ∈ first :: rest, row = fun c => r c - lowest c := by
    intro row hrow
    rcases List.mem_cons.mp hrow with rfl | hrow
    · exact ⟨first, by simp, rfl⟩
    · obtain ⟨r, hr, rfl⟩ := List.mem_map.mp hrow
      exact ⟨r, List.mem_cons_of_mem _ hr, rfl⟩
  have hnonneg : ∀ row ∈ first' :: rest', 0 ≤ row c := by
    intro row hrow
    obtain ⟨r, hr, rfl⟩ := hmem' row hrow
    have := hlow r hr
    simp only [lowest]
    linarith
  have hpos : 0 < columnMax first' rest' c := by
    have h1 := hhigh _ (hmem p hp)
    have h2 := hhigh _ (hmem q hq)
    have h3 := hlow p hp
    have h4 := hlow q hq
    simp only [lowest] at h1 h2
    rcases lt_or_gt_of_ne hpq with h | h
    · have : 0 < q c - columnMin first rest c := by linarith
      exact this.trans_le h2
    · have : 0 < p c - columnMin first rest c := by linarith
      exact this.trans_le h1
  refine ⟨?_, ?_, ?_, columnMax first' rest' c, hpos, ?_⟩
  · intro row hrow
    obtain ⟨r, hr, rfl⟩ := List.mem_map.mp hrow
    exact ⟨div_nonneg (hnonneg r hr) hpos.le, (div_le_one hpos).mpr (hhigh r hr)⟩
  · refine ⟨_, List.mem_map_of_mem (hmem low hl1), ?_⟩
    simp only [lowest, hl2, sub_self, zero_div]
  · exact ⟨_, List.mem_map_of_mem hh1, by simp only [hh2]; exact div_self hpos.ne'⟩
  · intro i j hi hj
    have hget : ∀ (i : ℕ) (hi : i < (first :: rest).length),
        ((first' :: rest').map fun row c => row c / columnMax first' rest' c)[i]? =
          some fun c => ((first :: rest)[i] c - lowest c) / columnMax first' rest' c := by
      intro i hi
      have : first' :: rest' = (first :: rest).map fun row c => row c - lowest c := rfl
      rw [List.getElem?_map]
      rw [this, List.getElem?_map, List.getElem?_eq_getElem hi]
      rfl
    refine ⟨_, _, hget i hi, hget j hj, ?_⟩
    field_simp
    ring

example : ∃ moved, translateNodes [fun c => (c : ℚ) + 2, fun _ => 5] (some fun _ => 7) = some moved ∧
    moved.map (fun row => [row 0, row 1]) = [[7, 7], [10, 9]] := by
  refine ⟨_, rfl, ?_⟩
  decide +kernel

example : ∃ normal, normalizeNodes [fun c => (c : ℚ) + 2, fun _ => 5, fun c => if c = 0 then 3 else 9]
      = some normal ∧
    normal.map (fun row => [row 0, row 1]) = [[0, 0], [1, 1 / 3], [1 / 3, 1]] := by
  refine ⟨_, rfl, ?_⟩
  decide +kernel

end C54

end Conmech
