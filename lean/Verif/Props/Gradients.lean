import Verif.Lemmas.Forms
/-!
C21, C22: shape-function gradients.
-/
namespace Conmech
open Spec

variable {K : Type _} [Field K] [LinearOrder K] [IsStrictOrderedRing K]

/-- `σ` reorders the numbers below `n`. -/
def Reorders (n : ℕ) (σ : ℕ → ℕ) : Prop :=
  (∀ i < n, σ i < n) ∧ ∀ i < n, ∀ j < n, σ i = σ j → i = j

theorem abs_det2_reorder (X : ℕ → ℕ → K) (σ : ℕ → ℕ) (h : Reorders 3 σ) :
    |det2 fun i => X (σ i)| = |det2 X| := by
  obtain ⟨h1, h2⟩ := h
  have a0 := h1 0 (by omega)
  have a1 := h1 1 (by omega)
  have a2 := h1 2 (by omega)
  have b01 : σ 0 ≠ σ 1 := fun h => by simpa using h2 0 (by omega) 1 (by omega) h
  have b02 : σ 0 ≠ σ 2 := fun h => by simpa using h2 0 (by omega) 2 (by omega) h
  have b12 : σ 1 ≠ σ 2 := fun h => by simpa using h2 1 (by omega) 2 (by omega) h
  simp only [det2]
  generalize σ 0 = s0 at *
  generalize σ 1 = s1 at *
  generalize σ 2 = s2 at *
  rw [abs_eq_abs]
  interval_cases s0 <;> interval_cases s1 <;> first
    | exact absurd rfl b01
    | (interval_cases s2 <;> first
        | exact absurd rfl b02
        | exact absurd rfl b12
        | (left; ring; done)
        | (right; ring; done))

theorem abs_det3_reorder (X : ℕ → ℕ → K) (σ : ℕ → ℕ) (h : Reorders 4 σ) :
    |det3 fun i => X (σ i)| = |det3 X| := by
  obtain ⟨h1, h2⟩ := h
  have a0 := h1 0 (by omega)
  have a1 := h1 1 (by omega)
  have a2 := h1 2 (by omega)
  have a3 := h1 3 (by omega)
  have b01 : σ 0 ≠ σ 1 := fun h => by simpa using h2 0 (by omega) 1 (by omega) h
  have b02 : σ 0 ≠ σ 2 := fun h => by simpa using h2 0 (by omega) 2 (by omega) h
  have b03 : σ 0 ≠ σ 3 := fun h => by simpa using h2 0 (by omega) 3 (by omega) h
  have b12 : σ 1 ≠ σ 2 := fun h => by simpa using h2 1 (by omega) 2 (by omega) h
  have b13 : σ 1 ≠ σ 3 := fun h => by simpa using h2 1 (by omega) 3 (by omega) h
  have b23 : σ 2 ≠ σ 3 := fun h => by simpa using h2 2 (by omega) 3 (by omega) h
  simp only [det3]
  generalize σ 0 = s0 at *
  generalize σ 1 = s1 at *
  generalize σ 2 = s2 at *
  generalize σ 3 = s3 at *
  rw [abs_eq_abs]
  interval_cases s0 <;> interval_cases s1 <;> first
    | exact absurd rfl b01
    | (interval_cases s2 <;> first
        | exact absurd rfl b02
        | exact absurd rfl b12
        | (interval_cases s3 <;> first
          | exact absurd rfl b03
          | exact absurd rfl b13
          | exact absurd rfl b23
          | (left; ring; done)
          | (right; ring; done)))

omit [IsStrictOrderedRing K] [LinearOrder K] in
theorem Shape.nodal {d : ℕ} {X g : ℕ → ℕ → K} (h : Shape d X g) {i : ℕ} (hi : i < d + 1) :
    IsGradient d X (fun j => if j = i then 1 else 0) (g i) := by
  obtain ⟨c, hc⟩ := h.kron
  refine ⟨c i, fun j hj => ?_⟩
  rw [hc i hi j hj]
  simp only [eq_comm]

omit [IsStrictOrderedRing K] [LinearOrder K] in
theorem Shape.reorder {d : ℕ} {X g g' : ℕ → ℕ → K} {σ : ℕ → ℕ} (h : Shape d X g)
    (h' : Shape d (fun i => X (σ i)) g') (hσ : Reorders (d + 1) σ) {i : ℕ} (hi : i < d + 1) {k : ℕ}
    (hk : k < d) : g' i k = g (σ i) k := by
  obtain ⟨c, hc⟩ := h.nodal (hσ.1 i hi)
  have hG : IsGradient d (fun i => X (σ i)) (fun j => if j = i then 1 else 0) (g (σ i)) := by
    refine ⟨c, fun j hj => ?_⟩
    rw [← hc (σ j) (hσ.1 j hj)]
    by_cases hji : j = i
    · simp [hji]
    · have hn : σ j ≠ σ i := fun h => hji (hσ.2 j hj i hi h)
      simp [hji, hn]
  rw [← h'.gradient_eq hG hk]
  simp [Finset.sum_ite_eq', hi]

/-- C21: the affine function that is one at vertex `i` and zero at the other vertices of a triangle has
the gradient used for assembly. -/
theorem C21_nodal_basis (X : ℕ → ℕ → K) (h : det2 X ≠ 0) (i : ℕ) (hi : i < 3) :
    IsGradient 2 X (fun j => if j = i then 1 else 0) (Plane.gradient X i) :=
  (Plane.shape X h).nodal hi

/-- C21: the gradients sum to zero. -/
theorem C21_sum_zero (X : ℕ → ℕ → K) (h : det2 X ≠ 0) (k : ℕ) (hk : k < 2) :
    ∑ i ∈ Finset.range 3, Plane.gradient X i k = 0 :=
  (Plane.shape X h).sum_zero k hk

/-- C21: the gradients reproduce the gradient of every affine function from its values at the
vertices. -/
theorem C21_affine_exact (X : ℕ → ℕ → K) (h : det2 X ≠ 0) (vals G : ℕ → K)
    (hG : IsGradient 2 X vals G) (k : ℕ) (hk : k < 2) :
    ∑ i ∈ Finset.range 3, vals i * Plane.gradient X i k = G k :=
  (Plane.shape X h).gradient_eq hG hk

/-- C21: the gradient of a vertex does not depend on the order of the vertices. -/
theorem C21_order (X : ℕ → ℕ → K) (h : det2 X ≠ 0) (σ : ℕ → ℕ) (hσ : Reorders 3 σ) (i : ℕ) (hi : i < 3)
    (k : ℕ) (hk : k < 2) : Plane.gradient (fun i => X (σ i)) i k = Plane.gradient X (σ i) k := by
  refine (Plane.shape X h).reorder (Plane.shape _ ?_) hσ hi hk
  rw [← abs_pos, abs_det2_reorder X σ hσ, abs_pos]
  exact h

/-- C21: on every non-degenerate triangle any values at the vertices belong to an affine function. -/
theorem C21_every_values (X : ℕ → ℕ → K) (h : det2 X ≠ 0) (vals : ℕ → K) :
    ∃ G, IsGradient 2 X vals G :=
  ⟨_, (Plane.shape X h).gradient_exists vals⟩

/-- C22: the affine function that is one at vertex `i` and zero at the other vertices of a tetrahedron
has the gradient used for assembly. -/
theorem C22_nodal_basis (X : ℕ → ℕ → K) (h : det3 X ≠ 0) (i : ℕ) (hi : i < 4) :
    IsGradient 3 X (fun j => if j = i then 1 else 0) (Space.gradient X i) :=
  (Space.shape X h).nodal hi

/-- C22: the gradients sum to zero. -/
theorem C22_sum_zero (X : ℕ → ℕ → K) (h : det3 X ≠ 0) (k : ℕ) (hk : k < 3) :
    ∑ i ∈ Finset.range 4, Space.gradient X i k = 0 :=
  (Space.shape X h).sum_zero k hk

/-- C22: the gradients reproduce the gradient of every affine function from its values at the
vertices. -/
theorem C22_affine_exact (X : ℕ → ℕ → K) (h : det3 X ≠ 0) (vals G : ℕ → K)
    (hG : IsGradient 3 X vals G) (k : ℕ) (hk : k < 3) :
    ∑ i ∈ Finset.range 4, vals i * Space.gradient X i k = G k :=
  (Space.shape X h).gradient_eq hG hk

/-- C22: the gradient of a vertex does not depend on the order of the vertices. -/
theorem C22_order (X : ℕ → ℕ → K) (h : det3 X ≠ 0) (σ : ℕ → ℕ) (hσ : Reorders 4 σ) (i : ℕ) (hi : i < 4)
    (k : ℕ) (hk : k < 3) : Space.gradient (fun i => X (σ i)) i k = Space.gradient X (σ i) k := by
  refine (Space.shape X h).reorder (Space.shape _ ?_) hσ hi hk
  rw [← abs_pos, abs_det3_reorder X σ hσ, abs_pos]
  exact h

/-- C22: on every non-degenerate tetrahedron any values at the vertices belong to an affine function. -/
theorem C22_every_values (X : ℕ → ℕ → K) (h : det3 X ≠ 0) (vals : ℕ → K) :
    ∃ G, IsGradient 3 X vals G :=
  ⟨_, (Space.shape X h).gradient_exists vals⟩

/-- The triangle with vertices `(0, 0), (2, 1), (1, 3)`. -/
def exampleTriangle : ℕ → ℕ → ℚ := fun i k => ([[0, 0], [2, 1], [1, 3]].getD i []).getD k 0

/-- A tetrahedron. -/
def exampleTetrahedron : ℕ → ℕ → ℚ := fun i k =>
  ([[0, 0, 1], [2, 1, 0], [1, 3, 0], [1, 1, 4]].getD i []).getD k 0

example : det2 exampleTriangle ≠ 0 := by decide +kernel
example : det3 exampleTetrahedron ≠ 0 := by decide +kernel
example : Plane.gradient exampleTriangle 1 0 = 3 / 5 ∧ Plane.gradient exampleTriangle 1 1 = -1 / 5 := by
  decide +kernel
example : Reorders 3 fun i => (i + 1) % 3 := ⟨by decide, by decide⟩
example : Reorders 4 fun i => (i + 3) % 4 := ⟨by decide, by decide⟩
/-- The values of `1 + 2x + 3y` at the vertices of the triangle. -/
example : IsGradient 2 exampleTriangle (fun i => [1, 8, 12].getD i 0) fun k => [2, 3].getD k 0 :=
  ⟨1, by simp only [Finset.sum_range_succ, Finset.sum_range_zero]; decide +kernel⟩
/-- The values of `1 + 2x + 3y - z` at the vertices of the tetrahedron. -/
example : IsGradient 3 exampleTetrahedron (fun i => [0, 8, 12, 2].getD i 0)
    fun k => [2, 3, -1].getD k 0 :=
  ⟨1, by simp only [Finset.sum_range_succ, Finset.sum_range_zero]; decide +kernel⟩

end Conmech
