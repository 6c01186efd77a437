import Mathlib.Data.List.GetD
import Mathlib.Data.List.Nodup
import Mathlib.Data.List.Forall2
import Mathlib.Tactic.Ring
import Mathlib.Tactic.Linarith
import Mathlib.Tactic.FieldSimp
import Mathlib.Tactic.NormNum
import Mathlib.Tactic.Push
import Mathlib.Algebra.Order.Floor.Semiring
import Verif.Model.MeshZoo
import Verif.Spec.MeshZoo
/-
The cross mesh in units of half a cell.
-/
namespace Conmech

variable {K : Type} [Field K] [LinearOrder K]

/-- The nodes in units of half a cell. -/
def halfWrites (sx sy : ℕ) : List (ℕ × ℕ) :=
  ((List.range sy).reverse.flatMap fun j : ℕ => (List.range sx).reverse.map fun i : ℕ =>
    (2 * i + 1, 2 * j + 1)) ++
  ((fromOne (sy - 1)).reverse.flatMap fun j : ℕ => (fromOne (sx - 1)).reverse.map fun i : ℕ =>
    (2 * i, 2 * j)) ++
  ((fromOne sx).map fun i : ℕ => (2 * i, 2 * sy)) ++
  ((List.range sy).reverse.map fun j : ℕ => (2 * sx, 2 * j)) ++
  ((List.range sx).reverse.map fun i : ℕ => (2 * i, 0)) ++
  ((fromOne sy).map fun j : ℕ => (0, 2 * j))

/-- The position of a node given in units of half a cell. -/
def halfPoint (ex ey : K) (h : ℕ × ℕ) : K × K := ((h.1 : K) / 2 * ex, (h.2 : K) / 2 * ey)

theorem fillSlots_eq {α : Type} (initial : α) (writes : List α) :
    fillSlots writes.length initial writes = writes := by
  apply List.ext_getElem
  · simp [fillSlots]
  · intro n h1 h2
    simp only [fillSlots, List.getElem_map, List.getElem_range]
    exact List.getD_eq_getElem _ _ h2

theorem mem_fromOne {n i : ℕ} : i ∈ fromOne n ↔ 1 ≤ i ∧ i ≤ n := by
  simp only [fromOne, List.mem_map, List.mem_range]
  constructor
  · rintro ⟨a, h, rfl⟩; omega
  · rintro ⟨h1, h2⟩; exact ⟨i - 1, by omega, by omega⟩

theorem mem_halfWrites {sx sy : ℕ} (hx : 1 ≤ sx) (hy : 1 ≤ sy) (h : ℕ × ℕ) :
    h ∈ halfWrites sx sy ↔ h.1 ≤ 2 * sx ∧ h.2 ≤ 2 * sy ∧ h.1 % 2 = h.2 % 2 := by
  obtain ⟨a, b⟩ := h
  simp only [halfWrites, List.mem_append, List.mem_flatMap, List.mem_map, List.mem_reverse,
    List.mem_range, mem_fromOne, Prod.mk.injEq]
  constructor
  · rintro (((((⟨j, h1, i, h2, h3, h4⟩ | ⟨j, h1, i, h2, h3, h4⟩) | ⟨i, h1, h2, h3⟩) |
      ⟨i, h1, h2, h3⟩) | ⟨i, h1, h2, h3⟩) | ⟨i, h1, h2, h3⟩) <;> omega
  · rintro ⟨h1, h2, h3⟩
    by_cases hodd : a % 2 = 1
    · exact Or.inl (Or.inl (Or.inl (Or.inl (Or.inl
        ⟨b / 2, by omega, a / 2, by omega, by omega, by omega⟩))))
    · by_cases ha0 : a = 0
      · by_cases hb0 : b = 0
        · exact Or.inl (Or.inr ⟨0, by omega, by omega, by omega⟩)
        · exact Or.inr ⟨b / 2, by omega, by omega, by omega⟩
      · by_cases hb1 : b = 2 * sy
        · exact Or.inl (Or.inl (Or.inl (Or.inr ⟨a / 2, by omega, by omega, by omega⟩)))
        · by_cases ha1 : a = 2 * sx
          · exact Or.inl (Or.inl (Or.inr ⟨b / 2, by omega, by omega, by omega⟩))
          · by_cases hb0 : b = 0
            · exact Or.inl (Or.inr ⟨a / 2, by omega, by omega, by omega⟩)
            · exact Or.inl (Or.inl (Or.inl (Or.inl (Or.inr
                ⟨b / 2, by omega, a / 2, by omega, by omega, by omega⟩))))

theorem length_flatMap_const {α β : Type} (l : List α) (f : α → List β) (n : ℕ)
    (h : ∀ x ∈ l, (f x).length = n) : (l.flatMap f).length = l.length * n := by
  induction l with
  | nil => simp
  | cons x l ih =>
    simp only [List.flatMap_cons, List.length_append, List.length_cons]
    rw [h x (by simp), ih fun y hy => h y (List.mem_cons_of_mem _ hy)]
    ring

theorem length_halfWrites {sx sy : ℕ} (hx : 1 ≤ sx) (hy : 1 ≤ sy) :
    (halfWrites sx sy).length = crossNodesCount sx sy := by
  obtain ⟨a, rfl⟩ : ∃ a, sx = a + 1 := ⟨sx - 1, by omega⟩
  obtain ⟨b, rfl⟩ : ∃ b, sy = b + 1 := ⟨sy - 1, by omega⟩
  simp only [halfWrites, List.length_append, List.length_map, List.length_reverse,
    List.length_range, fromOne, crossNodesCount]
  rw [length_flatMap_const _ _ (a + 1) (by simp), length_flatMap_const _ _ a (by simp)]
  simp only [List.length_reverse, List.length_range, List.length_map, Nat.add_sub_cancel]
  ring

theorem nodup_grid (l m : List ℕ) (f : ℕ → ℕ → ℕ × ℕ) (hl : l.Nodup) (hm : m.Nodup)
    (hf : ∀ i j i' j', f i j = f i' j' → i = i' ∧ j = j') :
    (l.flatMap fun j => m.map fun i => f i j).Nodup := by
  rw [List.nodup_flatMap]
  refine ⟨fun j _ => hm.map fun i i' h => (hf _ _ _ _ h).1, ?_⟩
  refine hl.imp ?_
  intro j j' hne
  simp only [Function.onFun, List.disjoint_left, List.mem_map]
  rintro x ⟨i, -, rfl⟩ ⟨i', -, h⟩
  exact hne (hf _ _ _ _ h).2.symm

theorem nodup_fromOne (n : ℕ) : (fromOne n).Nodup :=
  List.nodup_range.map fun a b h => by simpa using h

theorem nodup_halfWrites {sx sy : ℕ} (hx : 1 ≤ sx) (hy : 1 ≤ sy) : (halfWrites sx sy).Nodup := by
  simp only [halfWrites]
  simp only [List.nodup_append', List.disjoint_append_left]
  refine ⟨⟨⟨⟨⟨?_, ?_, ?_⟩, ?_, ?_, ?_⟩, ?_, ⟨?_, ?_⟩, ?_⟩, ?_, ⟨⟨?_, ?_⟩, ?_⟩, ?_⟩, ?_,
    ⟨⟨⟨?_, ?_⟩, ?_⟩, ?_⟩, ?_⟩
  all_goals try
    simp only [List.disjoint_left, List.mem_flatMap, List.mem_map, List.mem_reverse,
      List.mem_range, mem_fromOne]
    rintro ⟨a, b⟩
  · exact nodup_grid _ _ (fun i j => (2 * i + 1, 2 * j + 1)) (List.nodup_reverse.mpr List.nodup_range)
      (List.nodup_reverse.mpr List.nodup_range) (by simp only [Prod.mk.injEq]; omega)
  · exact nodup_grid _ _ (fun i j => (2 * i, 2 * j)) (List.nodup_reverse.mpr (nodup_fromOne _))
      (List.nodup_reverse.mpr (nodup_fromOne _)) (by simp only [Prod.mk.injEq]; omega)
  · rintro ⟨j, h1, i, h2, h3⟩ ⟨j', h1', i', h2', h3'⟩
    simp only [Prod.mk.injEq] at h3 h3'; omega
  · exact (nodup_fromOne _).map fun i j h => by simpa using h
  · rintro ⟨j, h1, i, h2, h3⟩ ⟨j', h1', h3'⟩
    simp only [Prod.mk.injEq] at h3 h3'; omega
  · rintro ⟨j, h1, i, h2, h3⟩ ⟨j', h1', h3'⟩
    simp only [Prod.mk.injEq] at h3 h3'; omega
  · exact (List.nodup_reverse.mpr List.nodup_range).map fun i j h => by simpa using h
  · rintro ⟨j, h1, i, h2, h3⟩ ⟨j', h1', h3'⟩
    simp only [Prod.mk.injEq] at h3 h3'; omega
  · rintro ⟨j, h1, i, h2, h3⟩ ⟨j', h1', h3'⟩
    simp only [Prod.mk.injEq] at h3 h3'; omega
  · rintro ⟨i, h2, h3⟩ ⟨j', h1', h3'⟩
    simp only [Prod.mk.injEq] at h3 h3'; omega
  · exact (List.nodup_reverse.mpr List.nodup_range).map fun i j h => by simpa using h
  · rintro ⟨j, h1, i, h2, h3⟩ ⟨j', h1', h3'⟩
    simp only [Prod.mk.injEq] at h3 h3'; omega
  · rintro ⟨j, h1, i, h2, h3⟩ ⟨j', h1', h3'⟩
    simp only [Prod.mk.injEq] at h3 h3'; omega
  · rintro ⟨i, h2, h3⟩ ⟨j', h1', h3'⟩
    simp only [Prod.mk.injEq] at h3 h3'; omega
  · rintro ⟨i, h2, h3⟩ ⟨j', h1', h3'⟩
    simp only [Prod.mk.injEq] at h3 h3'; omega
  · exact (nodup_fromOne _).map fun i j h => by simpa using h
  · rintro ⟨j, h1, i, h2, h3⟩ ⟨j', h1', h3'⟩
    simp only [Prod.mk.injEq] at h3 h3'; omega
  · rintro ⟨j, h1, i, h2, h3⟩ ⟨j', h1', h3'⟩
    simp only [Prod.mk.injEq] at h3 h3'; omega
  · rintro ⟨i, h2, h3⟩ ⟨j', h1', h3'⟩
    simp only [Prod.mk.injEq] at h3 h3'; omega
  · rintro ⟨i, h2, h3⟩ ⟨j', h1', h3'⟩
    simp only [Prod.mk.injEq] at h3 h3'; omega
  · rintro ⟨i, h2, h3⟩ ⟨j', h1', h3'⟩
    simp only [Prod.mk.injEq] at h3 h3'; omega

variable [IsStrictOrderedRing K]

/-- The assigned nodes are the points given by `halfWrites`. -/
theorem crossNodeWrites_eq (sx sy : ℕ) (ex ey : K) :
    crossNodeWrites sx sy ex ey = (halfWrites sx sy).map (halfPoint ex ey) := by
  simp only [crossNodeWrites, halfWrites, List.map_append, List.map_flatMap, List.map_map]
  have e1 : ∀ i : ℕ, ((2 * i : ℕ) : K) / 2 = (i : K) := fun i => by push_cast; field_simp
  have e2 : ∀ i : ℕ, ((2 * i + 1 : ℕ) : K) / 2 = (i : K) + 1 / 2 := fun i => by
    push_cast; field_simp
  simp only [Function.comp_def, halfPoint, e1, e2, Nat.cast_zero, zero_div, zero_mul]

theorem crossNodes_eq {sx sy : ℕ} (hx : 1 ≤ sx) (hy : 1 ≤ sy) (ex ey : K) :
    crossNodes sx sy ex ey = (halfWrites sx sy).map (halfPoint ex ey) := by
  unfold crossNodes
  rw [crossNodeWrites_eq, ← length_halfWrites hx hy]
  have := fillSlots_eq ((0 : K), (0 : K)) ((halfWrites sx sy).map (halfPoint ex ey))
  rwa [List.length_map] at this

/-- Different nodes are at least a cell length apart. -/
theorem halfPoint_separated {ex ey : K} {tol : K} (hx : tol ≤ ex) (hy : tol ≤ ey) (ht : 0 < tol)
    {g h : ℕ × ℕ} (hg : g.1 % 2 = g.2 % 2) (hh : h.1 % 2 = h.2 % 2)
    (hclose : |(halfPoint ex ey g).1 - (halfPoint ex ey h).1| +
      |(halfPoint ex ey g).2 - (halfPoint ex ey h).2| < tol) : g = h := by
  obtain ⟨a, b⟩ := g
  obtain ⟨c, d⟩ := h
  simp only [halfPoint] at *
  have hex : 0 < ex := ht.trans_le hx
  have hey : 0 < ey := ht.trans_le hy
  have e1 : ∀ (a c : ℕ) (ex : K), 0 < ex →
      |(a : K) / 2 * ex - (c : K) / 2 * ex| = (((a : ℤ) - c).natAbs : K) / 2 * ex := by
    intro a c ex hex
    have : (((a : ℤ) - c).natAbs : K) = |(a : K) - c| := by
      rw [Nat.cast_natAbs]; push_cast; rfl
    rw [this, ← sub_mul, abs_mul, abs_of_pos hex, ← sub_div, abs_div, abs_two]
  rw [e1 a c ex hex, e1 b d ey hey] at hclose
  generalize hm : ((a : ℤ) - c).natAbs = m at hclose
  generalize hn : ((b : ℤ) - d).natAbs = n at hclose
  have hpar : m % 2 = n % 2 := by omega
  have hm2 : ¬ 2 ≤ m := by
    intro h
    have : (2 : K) ≤ m := by exact_mod_cast h
    have : 0 ≤ (n : K) / 2 * ey := by positivity
    nlinarith
  have hn2 : ¬ 2 ≤ n := by
    intro h
    have : (2 : K) ≤ n := by exact_mod_cast h
    have : 0 ≤ (m : K) / 2 * ex := by positivity
    nlinarith
  have h11 : ¬ (m = 1 ∧ n = 1) := by
    rintro ⟨rfl, rfl⟩
    push_cast at hclose
    linarith
  have : m = 0 ∧ n = 0 := by omega
  simp only [Prod.mk.injEq]
  omega

theorem nodeIndex_halfPoint {sx sy : ℕ} (hx : 1 ≤ sx) (hy : 1 ≤ sy) {ex ey : K}
    (hex : 1 / 10000 ≤ ex) (hey : 1 / 10000 ≤ ey) {h : ℕ × ℕ} (h1 : h.1 ≤ 2 * sx)
    (h2 : h.2 ≤ 2 * sy) (h3 : h.1 % 2 = h.2 % 2) :
    ∃ k, nodeIndex (halfPoint ex ey h) (crossNodes sx sy ex ey) = some k ∧
      (crossNodes sx sy ex ey)[k]? = some (halfPoint ex ey h) := by
  have hmem : halfPoint ex ey h ∈ crossNodes sx sy ex ey := by
    rw [crossNodes_eq hx hy]
    exact List.mem_map_of_mem ((mem_halfWrites hx hy h).mpr ⟨h1, h2, h3⟩)
  unfold nodeIndex
  cases hfind : (crossNodes sx sy ex ey).findIdx? fun n =>
      decide (|(halfPoint ex ey h).1 - n.1| + |(halfPoint ex ey h).2 - n.2| < 1 / 10000) with
  | none =>
    rw [List.findIdx?_eq_none_iff] at hfind
    have := hfind _ hmem
    simp at this
  | some k =>
    refine ⟨k, rfl, ?_⟩
    rw [List.findIdx?_eq_some_iff_getElem] at hfind
    obtain ⟨hk, hclose, -⟩ := hfind
    rw [List.getElem?_eq_getElem hk]
    have hin : ∀ x ∈ crossNodes sx sy ex ey, ∃ g ∈ halfWrites sx sy, halfPoint ex ey g = x := by
      intro x hx'
      rw [crossNodes_eq hx hy] at hx'
      exact List.mem_map.mp hx'
    obtain ⟨g, hg, hgk⟩ := hin _ (List.getElem_mem hk)
    simp only [decide_eq_true_eq] at hclose
    have hgk' : (crossNodes sx sy ex ey)[k] = halfPoint ex ey g := hgk.symm
    rw [hgk'] at hclose ⊢
    rw [halfPoint_separated hex hey (by norm_num) h3 ((mem_halfWrites hx hy g).mp hg).2.2 hclose]

/-- The four triangles of a cell. -/
def cellTriangles (ex ey : K) (i j : ℕ) : List ((K × K) × (K × K) × (K × K)) :=
  let lb : K × K := (i * ex, j * ey)
  let rb : K × K := ((i + 1) * ex, j * ey)
  let rt : K × K := ((i + 1) * ex, (j + 1) * ey)
  let lt : K × K := (i * ex, (j + 1) * ey)
  let c : K × K := ((i + 1 / 2) * ex, (j + 1 / 2) * ey)
  [(lb, rb, c), (rb, rt, c), (rt, lt, c), (lt, lb, c)]

/-- The cells in the order in which they are visited. -/
def cells (sx sy : ℕ) : List (ℕ × ℕ) :=
  (List.range sx).flatMap fun i => (List.range sy).map fun j => (i, j)

/-- The triangles of the mesh. -/
def crossTriangles (sx sy : ℕ) (ex ey : K) : List ((K × K) × (K × K) × (K × K)) :=
  (cells sx sy).flatMap fun ij => cellTriangles ex ey ij.1 ij.2

theorem crossCell_corners {sx sy : ℕ} {ex ey : K} (hex : 1 / 10000 ≤ ex) (hey : 1 / 10000 ≤ ey)
    {i j : ℕ} (hi : i < sx) (hj : j < sy) :
    ∃ es, crossCell ex ey (crossNodes sx sy ex ey) i j = some es ∧
      List.Forall₂ (Spec.HasCorners (crossNodes sx sy ex ey)) es (cellTriangles ex ey i j) := by
  have hx : 1 ≤ sx := by omega
  have hy : 1 ≤ sy := by omega
  obtain ⟨lb, h1, h1'⟩ := nodeIndex_halfPoint hx hy hex hey (h := (2 * i, 2 * j))
    (by simp; omega) (by simp; omega) (by simp)
  obtain ⟨rb, h2, h2'⟩ := nodeIndex_halfPoint hx hy hex hey (h := (2 * (i + 1), 2 * j))
    (by simp; omega) (by simp; omega) (by simp)
  obtain ⟨rt, h3, h3'⟩ := nodeIndex_halfPoint hx hy hex hey (h := (2 * (i + 1), 2 * (j + 1)))
    (by simp; omega) (by simp; omega) (by simp)
  obtain ⟨lt, h4, h4'⟩ := nodeIndex_halfPoint hx hy hex hey (h := (2 * i, 2 * (j + 1)))
    (by simp; omega) (by simp; omega) (by simp)
  obtain ⟨c, h5, h5'⟩ := nodeIndex_halfPoint hx hy hex hey (h := (2 * i + 1, 2 * j + 1))
    (by simp; omega) (by simp; omega) (by simp)
  have e1 : ∀ i : ℕ, ((2 * i : ℕ) : K) / 2 = (i : K) := fun i => by push_cast; field_simp
  have e2 : ∀ i : ℕ, ((2 * i + 1 : ℕ) : K) / 2 = (i : K) + 1 / 2 := fun i => by
    push_cast; field_simp
  simp only [halfPoint, e1, e2] at h1 h2 h3 h4 h5 h1' h2' h3' h4' h5'
  simp only [Nat.cast_add, Nat.cast_one] at h1 h2 h3 h4 h5 h1' h2' h3' h4' h5'
  refine ⟨[(lb, rb, c), (rb, rt, c), (rt, lt, c), (lt, lb, c)], ?_, ?_⟩
  · have g1 : (i : K) * ex + ex = ((i : K) + 1) * ex := by ring
    have g2 : (j : K) * ey + ey = ((j : K) + 1) * ey := by ring
    have g3 : (i : K) * ex + 1 / 2 * ex = ((i : K) + 1 / 2) * ex := by ring
    have g4 : (j : K) * ey + 1 / 2 * ey = ((j : K) + 1 / 2) * ey := by ring
    simp only [crossCell, g1, g2, g3, g4, add_zero, h1, h2, h3, h4, h5, Option.bind_eq_bind,
      Option.bind_some]
  · simp only [cellTriangles, List.forall₂_cons, List.forall₂_nil_right_iff, Spec.HasCorners, and_true]
    exact ⟨⟨h1', h2', h5'⟩, ⟨h2', h3', h5'⟩, ⟨h3', h4', h5'⟩, ⟨h4', h1', h5'⟩⟩

theorem mapM_forall {α β γ : Type} (f : α → Option (List β)) (g : α → List γ) (R : β → γ → Prop)
    (l : List α) (h : ∀ a ∈ l, ∃ bs, f a = some bs ∧ List.Forall₂ R bs (g a)) :
    ∃ bss, l.mapM f = some bss ∧ List.Forall₂ R bss.flatten (l.flatMap g) := by
  induction l with
  | nil => exact ⟨[], by simp, by simp⟩
  | cons a l ih =>
    obtain ⟨bs, h1, h2⟩ := h a (by simp)
    obtain ⟨bss, h3, h4⟩ := ih fun x hx => h x (List.mem_cons_of_mem _ hx)
    refine ⟨bs :: bss, ?_, ?_⟩
    · simp [List.mapM_cons, h1, h3]
    · simp only [List.flatten_cons, List.flatMap_cons]
      exact List.rel_append h2 h4

theorem mem_cells {sx sy : ℕ} (ij : ℕ × ℕ) : ij ∈ cells sx sy ↔ ij.1 < sx ∧ ij.2 < sy := by
  obtain ⟨i, j⟩ := ij
  simp [cells]

omit [LinearOrder K] [IsStrictOrderedRing K] in
theorem length_crossTriangles (sx sy : ℕ) (ex ey : K) :
    (crossTriangles sx sy ex ey).length = crossElementsCount sx sy := by
  unfold crossTriangles
  rw [length_flatMap_const _ _ 4 (by simp [cellTriangles])]
  have : (cells sx sy).length = sx * sy := by
    unfold cells
    rw [length_flatMap_const _ _ sy (by simp)]
    simp
  rw [this, crossElementsCount]; ring

theorem crossElements_corners {sx sy : ℕ} {ex ey : K} (hex : 1 / 10000 ≤ ex)
    (hey : 1 / 10000 ≤ ey) :
    ∃ es, crossElements sx sy ex ey (crossNodes sx sy ex ey) = some es ∧
      List.Forall₂ (Spec.HasCorners (crossNodes sx sy ex ey)) es (crossTriangles sx sy ex ey) := by
  obtain ⟨bss, h1, h2⟩ := mapM_forall
    (fun ij : ℕ × ℕ => crossCell ex ey (crossNodes sx sy ex ey) ij.1 ij.2)
    (fun ij => cellTriangles ex ey ij.1 ij.2) (Spec.HasCorners (crossNodes sx sy ex ey))
    (cells sx sy) (fun ij hij => by
      obtain ⟨hi, hj⟩ := (mem_cells ij).mp hij
      exact crossCell_corners hex hey hi hj)
  refine ⟨bss.flatten, ?_, h2⟩
  have hlen : bss.flatten.length = crossElementsCount sx sy := by
    rw [h2.length_eq]; exact length_crossTriangles sx sy ex ey
  unfold crossElements
  unfold cells at h1
  rw [h1]
  simp only [Option.bind_eq_bind, Option.bind_some]
  rw [← hlen, fillSlots_eq]

section Tiling

variable {ex ey : K}

/-- The sign conditions of the triangles of a cell, in coordinates relative to its corner: `a`, `b`,
`c` are the three determinants. -/
def CellSigns (ex ey u v : K) (n : ℕ) (a b c : K) : Prop :=
  (n = 0 ∧ a = ex * v ∧ 2 * b = ex * ey - ex * v - ey * u ∧ 2 * c = ey * u - ex * v) ∨
  (n = 1 ∧ a = ey * (ex - u) ∧ 2 * b = ey * u - ex * v ∧ 2 * c = -(ex * ey - ex * v - ey * u)) ∨
  (n = 2 ∧ a = ex * (ey - v) ∧ 2 * b = -(ex * ey - ex * v - ey * u) ∧
    2 * c = -(ey * u - ex * v)) ∨
  (n = 3 ∧ a = ey * u ∧ 2 * b = -(ey * u - ex * v) ∧ 2 * c = ex * ey - ex * v - ey * u)

theorem cell_signs (i j : ℕ) (u v : K) {t : (K × K) × (K × K) × (K × K)} {n : ℕ}
    (ht : (cellTriangles ex ey i j)[n]? = some t) :
    Spec.triArea t = ex * ey / 4 ∧
    CellSigns ex ey u v n (Spec.orient t.1 t.2.1 (i * ex + u, j * ey + v))
      (Spec.orient t.2.1 t.2.2 (i * ex + u, j * ey + v))
      (Spec.orient t.2.2 t.1 (i * ex + u, j * ey + v)) := by
  have hn : n < 4 := by
    have := (List.getElem?_eq_some_iff.mp ht).1
    simpa [cellTriangles] using this
  have hcases : n = 0 ∨ n = 1 ∨ n = 2 ∨ n = 3 := by omega
  rcases hcases with rfl | rfl | rfl | rfl <;>
    simp only [cellTriangles, List.getElem?_cons_zero, List.getElem?_cons_succ,
      Option.some.injEq] at ht <;> subst ht <;>
    refine ⟨by simp only [Spec.triArea, Spec.orient]; ring, ?_⟩
  · refine Or.inl ⟨rfl, ?_, ?_, ?_⟩ <;> simp only [Spec.orient] <;> ring
  · refine Or.inr (Or.inl ⟨rfl, ?_, ?_, ?_⟩) <;> simp only [Spec.orient] <;> ring
  · refine Or.inr (Or.inr (Or.inl ⟨rfl, ?_, ?_, ?_⟩)) <;> simp only [Spec.orient] <;> ring
  · refine Or.inr (Or.inr (Or.inr ⟨rfl, ?_, ?_, ?_⟩)) <;> simp only [Spec.orient] <;> ring

theorem cellSigns_bounds (hex : 0 < ex) (hey : 0 < ey) {u v a b c : K} {n : ℕ}
    (h : CellSigns ex ey u v n a b c) (ha : 0 ≤ a) (hb : 0 ≤ b) (hc : 0 ≤ c) :
    0 ≤ u ∧ u ≤ ex ∧ 0 ≤ v ∧ v ≤ ey := by
  have key : ∀ {k w : K}, 0 < k → 0 ≤ k * w → 0 ≤ w := fun hk h =>
    nonneg_of_mul_nonneg_right h hk
  rcases h with ⟨-, h1, h2, h3⟩ | ⟨-, h1, h2, h3⟩ | ⟨-, h1, h2, h3⟩ | ⟨-, h1, h2, h3⟩
  · have hv := key hex (h1 ▸ ha)
    have hv' := mul_nonneg hex.le hv
    refine ⟨key hey (by linarith), ?_, hv, ?_⟩
    · have := key (w := ex - u) hey (by linarith)
      linarith
    · have := key (w := ey - v) hex (by linarith)
      linarith
  · have hu := key hey (h1 ▸ ha)
    have hu' := mul_nonneg hey.le hu
    refine ⟨key hey (by linarith), by linarith, ?_, ?_⟩
    · exact key hex (by linarith)
    · have := key (w := ey - v) hex (by linarith)
      linarith
  · have hv := key hex (h1 ▸ ha)
    have hv' := mul_nonneg hex.le hv
    refine ⟨key hey (by linarith), ?_, key hex (by linarith), by linarith⟩
    have := key (w := ex - u) hey (by linarith)
    linarith
  · have hu := key hey (h1 ▸ ha)
    have hu' := mul_nonneg hey.le hu
    refine ⟨hu, ?_, key hex (by linarith), ?_⟩
    · have := key (w := ex - u) hey (by linarith)
      linarith
    · have := key (w := ey - v) hex (by linarith)
      linarith

theorem cellSigns_strict (hex : 0 < ex) (hey : 0 < ey) {u v a b c : K} {n : ℕ}
    (h : CellSigns ex ey u v n a b c) (ha : 0 < a) (hb : 0 < b) (hc : 0 < c) :
    0 < u ∧ u < ex ∧ 0 < v ∧ v < ey := by
  have key : ∀ {k w : K}, 0 < k → 0 < k * w → 0 < w := fun hk h =>
    (mul_pos_iff_of_pos_left hk).mp h
  rcases h with ⟨-, h1, h2, h3⟩ | ⟨-, h1, h2, h3⟩ | ⟨-, h1, h2, h3⟩ | ⟨-, h1, h2, h3⟩
  · have hv := key hex (h1 ▸ ha)
    have hv' := mul_pos hex hv
    refine ⟨key hey (by linarith), ?_, hv, ?_⟩
    · have := key (w := ex - u) hey (by linarith)
      linarith
    · have := key (w := ey - v) hex (by linarith)
      linarith
  · have hu := key hey (h1 ▸ ha)
    have hu' := mul_pos hey hu
    refine ⟨key hey (by linarith), by linarith, ?_, ?_⟩
    · exact key hex (by linarith)
    · have := key (w := ey - v) hex (by linarith)
      linarith
  · have hv := key hex (h1 ▸ ha)
    have hv' := mul_pos hex hv
    refine ⟨key hey (by linarith), ?_, key hex (by linarith), by linarith⟩
    have := key (w := ex - u) hey (by linarith)
    linarith
  · have hu := key hey (h1 ▸ ha)
    have hu' := mul_pos hey hu
    refine ⟨hu, ?_, key hex (by linarith), ?_⟩
    · have := key (w := ex - u) hey (by linarith)
      linarith
    · have := key (w := ey - v) hex (by linarith)
      linarith

theorem cellSigns_unique {u v a b c a' b' c' : K} {n m : ℕ}
    (h : CellSigns ex ey u v n a b c) (h' : CellSigns ex ey u v m a' b' c')
    (hb : 0 < b) (hc : 0 < c) (hb' : 0 < b') (hc' : 0 < c') : n = m := by
  rcases h with ⟨h0, h1, h2, h3⟩ | ⟨h0, h1, h2, h3⟩ | ⟨h0, h1, h2, h3⟩ | ⟨h0, h1, h2, h3⟩ <;>
  rcases h' with ⟨g0, g1, g2, g3⟩ | ⟨g0, g1, g2, g3⟩ | ⟨g0, g1, g2, g3⟩ | ⟨g0, g1, g2, g3⟩ <;>
  first
    | (rw [h0, g0]; done)
    | (exfalso; linarith)

/-- Every point of a cell lies in one of its triangles. -/
theorem cell_covers (hex : 0 < ex) (hey : 0 < ey) (i j : ℕ) {u v : K} (hu : 0 ≤ u) (hu' : u ≤ ex)
    (hv : 0 ≤ v) (hv' : v ≤ ey) :
    ∃ t ∈ cellTriangles ex ey i j, Spec.InTriangle t (i * ex + u, j * ey + v) := by
  have main : ∀ n t, (cellTriangles ex ey i j)[n]? = some t →
      (∀ a b c, CellSigns ex ey u v n a b c → 0 ≤ a ∧ 0 ≤ b ∧ 0 ≤ c) →
      ∃ t ∈ cellTriangles ex ey i j, Spec.InTriangle t (i * ex + u, j * ey + v) := by
    intro n t ht h
    exact ⟨t, List.mem_of_getElem? ht, h _ _ _ (cell_signs i j u v ht).2⟩
  have p1 := mul_nonneg hex.le hv
  have p2 := mul_nonneg hey.le hu
  have p3 : 0 ≤ ex * (ey - v) := mul_nonneg hex.le (by linarith)
  have p4 : 0 ≤ ey * (ex - u) := mul_nonneg hey.le (by linarith)
  rcases le_total 0 (ey * u - ex * v) with hA | hA <;>
    rcases le_total 0 (ex * ey - ex * v - ey * u) with hB | hB
  · refine main 0 _ rfl fun a b c h => ?_
    rcases h with ⟨-, h1, h2, h3⟩ | ⟨h0, -⟩ | ⟨h0, -⟩ | ⟨h0, -⟩
    · refine ⟨?_, ?_, ?_⟩ <;> linarith
    all_goals omega
  · refine main 1 _ rfl fun a b c h => ?_
    rcases h with ⟨h0, -⟩ | ⟨-, h1, h2, h3⟩ | ⟨h0, -⟩ | ⟨h0, -⟩
    · omega
    · refine ⟨?_, ?_, ?_⟩ <;> linarith
    all_goals omega
  · refine main 3 _ rfl fun a b c h => ?_
    rcases h with ⟨h0, -⟩ | ⟨h0, -⟩ | ⟨h0, -⟩ | ⟨-, h1, h2, h3⟩
    · omega
    · omega
    · omega
    · refine ⟨?_, ?_, ?_⟩ <;> linarith
  · refine main 2 _ rfl fun a b c h => ?_
    rcases h with ⟨h0, -⟩ | ⟨h0, -⟩ | ⟨-, h1, h2, h3⟩ | ⟨h0, -⟩
    · omega
    · omega
    · refine ⟨?_, ?_, ?_⟩ <;> linarith
    · omega

theorem getElem?_flatMap_const {α β : Type} (l : List α) (f : α → List β) (n : ℕ)
    (h : ∀ x, (f x).length = n) (m : ℕ) (t : β) (hm : (l.flatMap f)[m]? = some t) :
    ∃ x, l[m / n]? = some x ∧ (f x)[m % n]? = some t := by
  induction l generalizing m with
  | nil => simp at hm
  | cons x l ih =>
    rw [List.flatMap_cons] at hm
    rcases lt_or_ge m n with hlt | hge
    · rw [List.getElem?_append_left (by rw [h]; exact hlt)] at hm
      exact ⟨x, by simp [Nat.div_eq_of_lt hlt], by rwa [Nat.mod_eq_of_lt hlt]⟩
    · rw [List.getElem?_append_right (by rw [h]; exact hge), h] at hm
      obtain ⟨y, h1, h2⟩ := ih _ hm
      have hn : 0 < n := by
        rcases Nat.eq_zero_or_pos n with rfl | hn
        · have := (List.getElem?_eq_some_iff.mp h2).1
          rw [h y] at this; omega
        · exact hn
      refine ⟨y, ?_, ?_⟩
      · have : m / n = (m - n) / n + 1 := by
          rw [Nat.div_eq_sub_div hn hge]
        rw [this, List.getElem?_cons_succ]; exact h1
      · rwa [← Nat.mod_eq_sub_mod hge] at h2

theorem nodup_cells (sx sy : ℕ) : (cells sx sy).Nodup := by
  unfold cells
  rw [List.nodup_flatMap]
  refine ⟨fun i _ => List.nodup_range.map fun a b h => by simpa using h, ?_⟩
  refine List.nodup_range.imp ?_
  intro i i' hne
  simp only [Function.onFun, List.disjoint_left, List.mem_map]
  rintro x ⟨j, -, rfl⟩ ⟨j', -, h⟩
  simp only [Prod.mk.injEq] at h
  exact hne h.1.symm

/-- An index is determined by a point strictly between its cell and the next. -/
theorem cell_unique (hex : 0 < ex) {i i' : ℕ} {x : K} (h1 : (i : K) * ex < x)
    (h2 : x < (i + 1) * ex) (h3 : (i' : K) * ex < x) (h4 : x < (i' + 1) * ex) : i = i' := by
  have a : (i : K) < i' + 1 := lt_of_mul_lt_mul_right (h1.trans h4) hex.le
  have b : (i' : K) < i + 1 := lt_of_mul_lt_mul_right (h3.trans h2) hex.le
  have a' : i < i' + 1 := by exact_mod_cast a
  have b' : i' < i + 1 := by exact_mod_cast b
  omega

omit [IsStrictOrderedRing K] in
/-- A point of an interval divided into cells lies in a cell. -/
theorem exists_cell {s : ℕ} (hs : 1 ≤ s) {x : K} (hx : 0 ≤ x) (hx' : x ≤ s * ex) :
    ∃ i : ℕ, i < s ∧ (i : K) * ex ≤ x ∧ x ≤ (i + 1) * ex := by
  induction s with
  | zero => omega
  | succ s ih =>
    rcases Nat.eq_zero_or_pos s with rfl | hpos
    · exact ⟨0, by omega, by simpa using hx, by simpa using hx'⟩
    · rcases le_total x (s * ex) with h | h
      · obtain ⟨i, h1, h2, h3⟩ := ih hpos h
        exact ⟨i, by omega, h2, h3⟩
      · exact ⟨s, by omega, h, by simpa using hx'⟩

/-- The triangles of the cross mesh tile the rectangle. -/
theorem crossTriangles_tiles {sx sy : ℕ} (hsx : 1 ≤ sx) (hsy : 1 ≤ sy) (hex : 0 < ex)
    (hey : 0 < ey) : Spec.Tiles (crossTriangles sx sy ex ey) (sx * ex) (sy * ey) := by
  have hget : ∀ t ∈ crossTriangles sx sy ex ey, ∃ (i j n : ℕ), i < sx ∧ j < sy ∧
      (cellTriangles ex ey i j)[n]? = some t := by
    intro t ht
    obtain ⟨ij, h1, h2⟩ := List.mem_flatMap.mp ht
    obtain ⟨n, hn⟩ := List.mem_iff_getElem?.mp h2
    exact ⟨ij.1, ij.2, n, ((mem_cells ij).mp h1).1, ((mem_cells ij).mp h1).2, hn⟩
  have harea : ∀ t ∈ crossTriangles sx sy ex ey, Spec.triArea t = ex * ey / 4 := by
    intro t ht
    obtain ⟨i, j, n, -, -, h⟩ := hget t ht
    exact (cell_signs i j 0 0 h).1
  refine ⟨?_, ?_, ?_, ?_, ?_⟩
  · intro t ht
    rw [harea t ht]
    positivity
  · have : ∀ l : List ((K × K) × (K × K) × (K × K)),
        (∀ t ∈ l, Spec.triArea t = ex * ey / 4) →
        (l.map Spec.triArea).sum = l.length * (ex * ey / 4) := by
      intro l
      induction l with
      | nil => simp
      | cons t l ih =>
        intro h
        rw [List.map_cons, List.sum_cons, ih fun t ht => h t (List.mem_cons_of_mem _ ht),
          h t (by simp), List.length_cons]
        push_cast; ring
    rw [this _ harea, length_crossTriangles, crossElementsCount]
    push_cast; ring
  · intro x y hx hx' hy hy'
    obtain ⟨i, hi, h1, h2⟩ := exists_cell hsx hx hx'
    obtain ⟨j, hj, h3, h4⟩ := exists_cell hsy hy hy'
    obtain ⟨t, ht, hin⟩ := cell_covers hex hey i j (u := x - i * ex) (v := y - j * ey)
      (by linarith) (by linarith) (by linarith) (by linarith)
    refine ⟨t, List.mem_flatMap.mpr ⟨(i, j), (mem_cells _).mpr ⟨hi, hj⟩, ht⟩, ?_⟩
    simpa using hin
  · intro t ht x y hin
    obtain ⟨i, j, n, hi, hj, h⟩ := hget t ht
    have hs := (cell_signs i j (x - i * ex) (y - j * ey) h).2
    simp only [add_sub_cancel] at hs
    obtain ⟨h1, h2, h3, h4⟩ := cellSigns_bounds hex hey hs hin.1 hin.2.1 hin.2.2
    have hi' : (i : K) + 1 ≤ sx := by exact_mod_cast hi
    have hj' : (j : K) + 1 ≤ sy := by exact_mod_cast hj
    have hi0 : 0 ≤ (i : K) * ex := by positivity
    have hj0 : 0 ≤ (j : K) * ey := by positivity
    have a := mul_le_mul_of_nonneg_right hi' hex.le
    have b := mul_le_mul_of_nonneg_right hj' hey.le
    refine ⟨by linarith, by linarith, by linarith, by linarith⟩
  · intro m n t u p hm hn ht hu
    obtain ⟨x, y⟩ := p
    obtain ⟨⟨i, j⟩, h1, h2⟩ := getElem?_flatMap_const (cells sx sy)
      (fun ij => cellTriangles ex ey ij.1 ij.2) 4 (by simp [cellTriangles]) m t hm
    obtain ⟨⟨i', j'⟩, h1', h2'⟩ := getElem?_flatMap_const (cells sx sy)
      (fun ij => cellTriangles ex ey ij.1 ij.2) 4 (by simp [cellTriangles]) n u hn
    have hs := (cell_signs i j (x - i * ex) (y - j * ey) h2).2
    have hs' := (cell_signs i' j' (x - i' * ex) (y - j' * ey) h2').2
    simp only [add_sub_cancel] at hs hs'
    obtain ⟨a1, a2, a3, a4⟩ := cellSigns_strict hex hey hs ht.1 ht.2.1 ht.2.2
    obtain ⟨b1, b2, b3, b4⟩ := cellSigns_strict hex hey hs' hu.1 hu.2.1 hu.2.2
    have hii : i = i' := cell_unique hex (x := x) (by linarith) (by linarith) (by linarith)
      (by linarith)
    have hjj : j = j' := cell_unique hey (x := y) (by linarith) (by linarith) (by linarith)
      (by linarith)
    subst hii hjj
    have hq : m % 4 = n % 4 := cellSigns_unique hs hs' ht.2.1 ht.2.2 hu.2.1 hu.2.2
    have hd : m / 4 = n / 4 := by
      obtain ⟨l1, e1⟩ := List.getElem?_eq_some_iff.mp h1
      obtain ⟨l2, e2⟩ := List.getElem?_eq_some_iff.mp h1'
      exact (List.Nodup.getElem_inj_iff (nodup_cells sx sy)).mp (e1.trans e2.symm)
    omega

/-- A node that lies in a triangle is one of its corners. -/
theorem cell_conforming (hex : 0 < ex) (hey : 0 < ey) {i j n : ℕ} {h : ℕ × ℕ}
    {t : (K × K) × (K × K) × (K × K)} (hpar : h.1 % 2 = h.2 % 2)
    (ht : (cellTriangles ex ey i j)[n]? = some t) (hin : Spec.InTriangle t (halfPoint ex ey h)) :
    halfPoint ex ey h = t.1 ∨ halfPoint ex ey h = t.2.1 ∨ halfPoint ex ey h = t.2.2 := by
  obtain ⟨a, b⟩ := h
  have hs := (cell_signs i j ((a : K) / 2 * ex - i * ex) ((b : K) / 2 * ey - j * ey) ht).2
  simp only [add_sub_cancel] at hs
  obtain ⟨h1, h2, h3, h4⟩ := cellSigns_bounds hex hey hs hin.1 hin.2.1 hin.2.2
  have c1 : 2 * (i : K) ≤ a := by
    have : (i : K) * ex ≤ a / 2 * ex := by linarith
    have := le_of_mul_le_mul_right this hex
    linarith
  have c2 : (a : K) ≤ 2 * i + 2 := by
    have : (a : K) / 2 * ex ≤ (i + 1) * ex := by linarith
    have := le_of_mul_le_mul_right this hex
    linarith
  have c3 : 2 * (j : K) ≤ b := by
    have : (j : K) * ey ≤ b / 2 * ey := by linarith
    have := le_of_mul_le_mul_right this hey
    linarith
  have c4 : (b : K) ≤ 2 * j + 2 := by
    have : (b : K) / 2 * ey ≤ (j + 1) * ey := by linarith
    have := le_of_mul_le_mul_right this hey
    linarith
  have d1 : 2 * i ≤ a := by exact_mod_cast c1
  have d2 : a ≤ 2 * i + 2 := by exact_mod_cast c2
  have d3 : 2 * j ≤ b := by exact_mod_cast c3
  have d4 : b ≤ 2 * j + 2 := by exact_mod_cast c4
  obtain ⟨k, rfl⟩ : ∃ k, a = 2 * i + k := ⟨a - 2 * i, by omega⟩
  obtain ⟨l, rfl⟩ : ∃ l, b = 2 * j + l := ⟨b - 2 * j, by omega⟩
  have hpos : 0 < ex * ey := mul_pos hex hey
  have hkl : (k = 0 ∧ l = 0) ∨ (k = 2 ∧ l = 0) ∨ (k = 2 ∧ l = 2) ∨ (k = 0 ∧ l = 2) ∨
      (k = 1 ∧ l = 1) := by
    simp only at hpar; omega
  have hn : n < 4 := by
    have := (List.getElem?_eq_some_iff.mp ht).1
    simpa [cellTriangles] using this
  have hcases : n = 0 ∨ n = 1 ∨ n = 2 ∨ n = 3 := by omega
  rcases hcases with rfl | rfl | rfl | rfl <;>
    simp only [cellTriangles, List.getElem?_cons_zero, List.getElem?_cons_succ,
      Option.some.injEq] at ht <;> subst ht <;>
    rcases hkl with ⟨rfl, rfl⟩ | ⟨rfl, rfl⟩ | ⟨rfl, rfl⟩ | ⟨rfl, rfl⟩ | ⟨rfl, rfl⟩ <;>
    first
    | (left; simp only [halfPoint, Prod.mk.injEq]; push_cast; constructor <;> ring; done)
    | (right; left; simp only [halfPoint, Prod.mk.injEq]; push_cast; constructor <;> ring; done)
    | (right; right; simp only [halfPoint, Prod.mk.injEq]; push_cast; constructor <;> ring; done)
    | (exfalso
       obtain ⟨e1, e2, e3⟩ := hin
       simp only [Spec.orient, halfPoint] at e1 e2 e3
       push_cast at e1 e2 e3
       ring_nf at e1 e2 e3
       linarith)

end Tiling

end Conmech
