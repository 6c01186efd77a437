import Mathlib.Tactic.LinearCombination
import Verif.Spec.Refinement
import Verif.Lemmas.CrossBoundary
/-!
Halving the cells of a cross mesh, in units of half a cell.
-/
namespace Conmech
open Spec

/-- The triangle of the coarse cell in which the triangle of the fine cell lies. -/
def parentNumber (a b n : ℕ) : ℕ :=
  match a, b, n with
  | 0, 0, 0 => 0
  | 0, 0, 1 => 0
  | 0, 0, _ => 3
  | 1, 0, 0 => 0
  | 1, 0, 1 => 1
  | 1, 0, 2 => 1
  | 1, 0, _ => 0
  | 0, _, 0 => 3
  | 0, _, 1 => 2
  | 0, _, 2 => 2
  | 0, _, _ => 3
  | _, _, 0 => 1
  | _, _, 1 => 1
  | _, _, _ => 2

/-- The coarse triangle in which a fine triangle lies. -/
def parentTriangle (x : (ℕ × ℕ) × ℕ) : (ℕ × ℕ) × ℕ :=
  ((x.1.1 / 2, x.1.2 / 2), parentNumber (x.1.1 % 2) (x.1.2 % 2) x.2)

/-- The four fine triangles of a coarse one. -/
def childTriangles : (ℕ × ℕ) × ℕ → List ((ℕ × ℕ) × ℕ)
  | ((i, j), 0) => [((2 * i, 2 * j), 0), ((2 * i, 2 * j), 1), ((2 * i + 1, 2 * j), 0), ((2 * i + 1, 2 * j), 3)]
  | ((i, j), 1) => [((2 * i + 1, 2 * j), 1), ((2 * i + 1, 2 * j), 2), ((2 * i + 1, 2 * j + 1), 0),
      ((2 * i + 1, 2 * j + 1), 1)]
  | ((i, j), 2) => [((2 * i + 1, 2 * j + 1), 2), ((2 * i + 1, 2 * j + 1), 3), ((2 * i, 2 * j + 1), 1),
      ((2 * i, 2 * j + 1), 2)]
  | ((i, j), _) => [((2 * i, 2 * j), 2), ((2 * i, 2 * j), 3), ((2 * i, 2 * j + 1), 0), ((2 * i, 2 * j + 1), 3)]

theorem parity_cases (i : ℕ) : ∃ I a, (a = 0 ∨ a = 1) ∧ i = 2 * I + a ∧ i / 2 = I ∧ i % 2 = a :=
  ⟨i / 2, i % 2, by omega, by omega, rfl, rfl⟩

theorem parentTriangle_mem {sx sy : ℕ} {x : (ℕ × ℕ) × ℕ} (hx : x ∈ triangleNumbers (2 * sx) (2 * sy)) :
    parentTriangle x ∈ triangleNumbers sx sy := by
  obtain ⟨⟨i, j⟩, n⟩ := x
  obtain ⟨h1, h2, h3⟩ := (mem_triangleNumbers _).1 hx
  rw [mem_triangleNumbers]
  simp only at h1 h2 h3
  refine ⟨by simp only [parentTriangle]; omega, by simp only [parentTriangle]; omega, ?_⟩
  simp only [parentTriangle]
  obtain ⟨I, a, ha, -, -, ea⟩ := parity_cases i
  obtain ⟨J, b, hb, -, -, eb⟩ := parity_cases j
  rw [ea, eb]
  rcases ha with rfl | rfl <;> rcases hb with rfl | rfl <;> interval_cases n <;> decide

theorem mem_childTriangles {sx sy : ℕ} {T : (ℕ × ℕ) × ℕ} (hT : T ∈ triangleNumbers sx sy)
    (x : (ℕ × ℕ) × ℕ) :
    x ∈ childTriangles T ↔ x ∈ triangleNumbers (2 * sx) (2 * sy) ∧ parentTriangle x = T := by
  obtain ⟨⟨I, J⟩, n⟩ := T
  obtain ⟨⟨i, j⟩, k⟩ := x
  obtain ⟨h1, h2, h3⟩ := (mem_triangleNumbers _).1 hT
  rw [mem_triangleNumbers]
  simp only at h1 h2 h3 ⊢
  obtain ⟨I', a, ha, ei, ei', ea⟩ := parity_cases i
  obtain ⟨J', b, hb, ej, ej', eb⟩ := parity_cases j
  simp only [parentTriangle, ei', ej', ea, eb, Prod.mk.injEq]
  constructor
  · intro h
    interval_cases n <;> simp only [childTriangles, List.mem_cons, Prod.mk.injEq, List.not_mem_nil,
      or_false] at h <;>
    rcases ha with rfl | rfl <;> rcases hb with rfl | rfl <;>
    rcases h with h | h | h | h <;> obtain ⟨⟨e1, e2⟩, rfl⟩ := h <;>
    first
      | (exfalso; omega)
      | exact ⟨by omega, ⟨by omega, by omega⟩, rfl⟩
  · rintro ⟨⟨g1, g2, g3⟩, ⟨rfl, rfl⟩, e⟩
    subst ei ej
    rcases ha with rfl | rfl <;> rcases hb with rfl | rfl <;> interval_cases k <;>
    (simp only [parentNumber] at e; subst e; simp [childTriangles])

theorem nodup_childTriangles {T : (ℕ × ℕ) × ℕ} (hT : T.2 < 4) : (childTriangles T).Nodup := by
  obtain ⟨⟨I, J⟩, n⟩ := T
  simp only at hT
  interval_cases n <;> simp [childTriangles]

theorem filter_parent_perm {sx sy : ℕ} {T : (ℕ × ℕ) × ℕ} (hT : T ∈ triangleNumbers sx sy) :
    ((triangleNumbers (2 * sx) (2 * sy)).filter fun x => parentTriangle x = T).Perm (childTriangles T) := by
  refine (List.perm_ext_iff_of_nodup ((nodup_triangleNumbers _ _).filter _)
    (nodup_childTriangles ((mem_triangleNumbers T).1 hT).2.2)).2 fun x => ?_
  rw [mem_childTriangles hT, List.mem_filter]
  simp

section
variable {K : Type} [Field K]

/-- The value at a node of the fine mesh of the field with the values `X` at the nodes of the coarse
mesh. -/
def fineValue (X : ℕ × ℕ → K) (H : ℕ × ℕ) : K :=
  if H.1 % 2 = 0 then
    if H.1 / 2 % 2 = H.2 / 2 % 2 then X (H.1 / 2, H.2 / 2)
    else if H.1 / 2 % 2 = 1 then (X (H.1 / 2 - 1, H.2 / 2) + X (H.1 / 2 + 1, H.2 / 2)) / 2
    else (X (H.1 / 2, H.2 / 2 - 1) + X (H.1 / 2, H.2 / 2 + 1)) / 2
  else if H.1 / 2 % 2 = H.2 / 2 % 2 then (X (H.1 / 2, H.2 / 2) + X (H.1 / 2 + 1, H.2 / 2 + 1)) / 2
  else (X (H.1 / 2 + 1, H.2 / 2) + X (H.1 / 2, H.2 / 2 + 1)) / 2

theorem fineValue_same (X : ℕ × ℕ → K) (a b : ℕ) (h : a % 2 = b % 2) :
    fineValue X (2 * a, 2 * b) = X (a, b) := by
  have e1 : 2 * a % 2 = 0 := by omega
  have e2 : 2 * a / 2 = a := by omega
  have e3 : 2 * b / 2 = b := by omega
  simp only [fineValue, e1, e2, e3, h, if_true]

theorem fineValue_horizontal (X : ℕ × ℕ → K) (a b : ℕ) (ha : a % 2 = 0) (hb : b % 2 = 0) :
    fineValue X (2 * (a + 1), 2 * b) = (X (a, b) + X (a + 2, b)) / 2 := by
  have e1 : 2 * (a + 1) % 2 = 0 := by omega
  have e2 : 2 * (a + 1) / 2 = a + 1 := by omega
  have e3 : 2 * b / 2 = b := by omega
  have e4 : (a + 1) % 2 = 1 := by omega
  simp only [fineValue, e1, e2, e3, e4, hb, if_true]
  simp

theorem fineValue_vertical (X : ℕ × ℕ → K) (a b : ℕ) (ha : a % 2 = 0) (hb : b % 2 = 0) :
    fineValue X (2 * a, 2 * (b + 1)) = (X (a, b) + X (a, b + 2)) / 2 := by
  have e1 : 2 * a % 2 = 0 := by omega
  have e2 : 2 * (b + 1) / 2 = b + 1 := by omega
  have e3 : 2 * a / 2 = a := by omega
  have e4 : (b + 1) % 2 = 1 := by omega
  simp only [fineValue, e1, e2, e3, e4, ha, if_true]
  simp

theorem fineValue_rising (X : ℕ × ℕ → K) (a b : ℕ) (h : a % 2 = b % 2) :
    fineValue X (2 * a + 1, 2 * b + 1) = (X (a, b) + X (a + 1, b + 1)) / 2 := by
  have e1 : (2 * a + 1) % 2 = 1 := by omega
  have e2 : (2 * a + 1) / 2 = a := by omega
  have e3 : (2 * b + 1) / 2 = b := by omega
  simp only [fineValue, e1, e2, e3, h, if_true]
  simp

theorem fineValue_falling (X : ℕ × ℕ → K) (a b : ℕ) (h : a % 2 ≠ b % 2) :
    fineValue X (2 * a + 1, 2 * b + 1) = (X (a + 1, b) + X (a, b + 1)) / 2 := by
  have e1 : (2 * a + 1) % 2 = 1 := by omega
  have e2 : (2 * a + 1) / 2 = a := by omega
  have e3 : (2 * b + 1) / 2 = b := by omega
  simp only [fineValue, e1, e2, e3, h, if_false]
  simp

/-- The values at the nodes of the coarse cell number `(I, J)`. -/
theorem fineValue_cell (X : ℕ × ℕ → K) (I J : ℕ) :
    let L := 2 * I
    let B := 2 * J
    fineValue X (2 * L, 2 * B) = X (L, B) ∧
    fineValue X (2 * (L + 1), 2 * B) = (X (L, B) + X (L + 2, B)) / 2 ∧
    fineValue X (2 * (L + 2), 2 * B) = X (L + 2, B) ∧
    fineValue X (2 * L, 2 * (B + 1)) = (X (L, B) + X (L, B + 2)) / 2 ∧
    fineValue X (2 * (L + 1), 2 * (B + 1)) = X (L + 1, B + 1) ∧
    fineValue X (2 * (L + 2), 2 * (B + 1)) = (X (L + 2, B) + X (L + 2, B + 2)) / 2 ∧
    fineValue X (2 * L, 2 * (B + 2)) = X (L, B + 2) ∧
    fineValue X (2 * (L + 1), 2 * (B + 2)) = (X (L, B + 2) + X (L + 2, B + 2)) / 2 ∧
    fineValue X (2 * (L + 2), 2 * (B + 2)) = X (L + 2, B + 2) ∧
    fineValue X (2 * L + 1, 2 * B + 1) = (X (L, B) + X (L + 1, B + 1)) / 2 ∧
    fineValue X (2 * (L + 1) + 1, 2 * B + 1) = (X (L + 2, B) + X (L + 1, B + 1)) / 2 ∧
    fineValue X (2 * L + 1, 2 * (B + 1) + 1) = (X (L + 1, B + 1) + X (L, B + 2)) / 2 ∧
    fineValue X (2 * (L + 1) + 1, 2 * (B + 1) + 1) = (X (L + 1, B + 1) + X (L + 2, B + 2)) / 2 := by
  intro L B
  have hL : L % 2 = 0 := by omega
  have hB : B % 2 = 0 := by omega
  refine ⟨?_, ?_, ?_, ?_, ?_, ?_, ?_, ?_, ?_, ?_, ?_, ?_, ?_⟩
  · exact fineValue_same _ _ _ (by omega)
  · exact fineValue_horizontal _ _ _ hL hB
  · exact fineValue_same _ _ _ (by omega)
  · exact fineValue_vertical _ _ _ hL hB
  · exact fineValue_same _ _ _ (by omega)
  · exact fineValue_vertical _ _ _ (by omega) hB
  · exact fineValue_same _ _ _ (by omega)
  · exact fineValue_horizontal _ _ _ hL (by omega)
  · exact fineValue_same _ _ _ (by omega)
  · exact fineValue_rising _ _ _ (by omega)
  · exact fineValue_falling _ _ _ (by omega)
  · exact fineValue_falling _ _ _ (by omega)
  · exact fineValue_rising _ _ _ (by omega)

/-- The affine function at a point of the grid. -/
def gridAffine (ex ey c : K) (G : ℕ → K) (h : ℕ × ℕ) : K :=
  c + (G 0 * (halfPoint ex ey h).1 + G 1 * (halfPoint ex ey h).2)

variable [CharZero K]

/-- Where the coarse field is affine, the fine field is the same affine function. -/
theorem fineValue_affine {ex ey c : K} {G : ℕ → K} {X : ℕ × ℕ → K} {x : (ℕ × ℕ) × ℕ} (hx : x.2 < 4)
    (h1 : X (halfRow (parentTriangle x).1.1 (parentTriangle x).1.2 (parentTriangle x).2).1 =
      gridAffine ex ey c G (halfRow (parentTriangle x).1.1 (parentTriangle x).1.2 (parentTriangle x).2).1)
    (h2 : X (halfRow (parentTriangle x).1.1 (parentTriangle x).1.2 (parentTriangle x).2).2.1 =
      gridAffine ex ey c G (halfRow (parentTriangle x).1.1 (parentTriangle x).1.2 (parentTriangle x).2).2.1)
    (h3 : X (halfRow (parentTriangle x).1.1 (parentTriangle x).1.2 (parentTriangle x).2).2.2 =
      gridAffine ex ey c G (halfRow (parentTriangle x).1.1 (parentTriangle x).1.2 (parentTriangle x).2).2.2) :
    fineValue X (halfRow x.1.1 x.1.2 x.2).1 = gridAffine (ex / 2) (ey / 2) c G (halfRow x.1.1 x.1.2 x.2).1 ∧
    fineValue X (halfRow x.1.1 x.1.2 x.2).2.1 = gridAffine (ex / 2) (ey / 2) c G (halfRow x.1.1 x.1.2 x.2).2.1 ∧
    fineValue X (halfRow x.1.1 x.1.2 x.2).2.2 = gridAffine (ex / 2) (ey / 2) c G (halfRow x.1.1 x.1.2 x.2).2.2 := by
  obtain ⟨⟨i, j⟩, n⟩ := x
  obtain ⟨I, a, ha, ei, ei', ea⟩ := parity_cases i
  obtain ⟨J, b, hb, ej, ej', eb⟩ := parity_cases j
  simp only [parentTriangle, ei', ej', ea, eb] at h1 h2 h3
  subst ei ej
  simp only at hx ⊢
  obtain ⟨v1, v2, v3, v4, v5, v6, v7, v8, v9, v10, v11, v12, v13⟩ := fineValue_cell X I J
  have m1 : 2 * (I + 1) = 2 * I + 2 := by ring
  have m2 : 2 * (J + 1) = 2 * J + 2 := by ring
  rcases ha with rfl | rfl <;> rcases hb with rfl | rfl <;> interval_cases n <;>
  (simp only [parentNumber, halfRow, m1, m2, Nat.add_zero, Nat.add_assoc, Nat.reduceAdd] at h1 h2 h3 v1 v2 v3 v4 v5 v6 v7 v8 v9 v10 v11 v12 v13 ⊢
   simp only [v1, v2, v3, v4, v5, v6, v7, v8, v9, v10, v11, v12, v13]
   refine ⟨?_, ?_, ?_⟩ <;>
   (simp only [h1, h2, h3, gridAffine, halfPoint]; push_cast; ring))

/-- The corners of a triangle of the grid. -/
def gridCorners (ex ey : K) (x : (ℕ × ℕ) × ℕ) : ℕ → ℕ → K := fun i k =>
  let r := halfRow x.1.1 x.1.2 x.2
  let p := halfPoint ex ey ([r.1, r.2.1, r.2.2].getD i (0, 0))
  if k = 0 then p.1 else p.2

end

section
variable {K : Type} [Field K] [LinearOrder K] [IsStrictOrderedRing K]

theorem det2_gridCorners (ex ey : K) {x : (ℕ × ℕ) × ℕ} (hx : x.2 < 4) :
    det2 (gridCorners ex ey x) = ex * ey / 2 := by
  obtain ⟨⟨i, j⟩, n⟩ := x
  simp only at hx
  interval_cases n <;> simp [det2, gridCorners, halfRow, halfPoint] <;> ring

/-- The integrals over the four parts of a triangle. -/
theorem integral_children {ex ey : K} (hex : 0 < ex) (hey : 0 < ey) {T : (ℕ × ℕ) × ℕ} (hT : T.2 < 4)
    (c : K) (G : ℕ → K) :
    ((childTriangles T).map fun x => integralOn (gridCorners (ex / 2) (ey / 2) x) c G).sum =
      integralOn (gridCorners ex ey T) c G := by
  have hc : ∀ x ∈ childTriangles T, x.2 < 4 := by
    obtain ⟨⟨I, J⟩, n⟩ := T
    simp only at hT
    interval_cases n <;> simp [childTriangles]
  have key : ∀ x ∈ childTriangles T, integralOn (gridCorners (ex / 2) (ey / 2) x) c G =
      ex * ey / 16 * ((affineAt c G (gridCorners (ex / 2) (ey / 2) x 0) +
        affineAt c G (gridCorners (ex / 2) (ey / 2) x 1) +
        affineAt c G (gridCorners (ex / 2) (ey / 2) x 2)) / 3) := by
    intro x hx
    rw [integralOn, area, det2_gridCorners _ _ (hc x hx), abs_of_pos (by positivity)]
    ring
  rw [List.map_congr_left key, integralOn, area, det2_gridCorners _ _ hT, abs_of_pos (by positivity)]
  obtain ⟨⟨I, J⟩, n⟩ := T
  simp only at hT
  interval_cases n <;> simp [childTriangles, affineAt, gridCorners, halfRow, halfPoint] <;> ring

end
end Conmech
