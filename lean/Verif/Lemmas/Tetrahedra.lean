import Mathlib.Tactic.Ring
import Mathlib.Tactic.LinearCombination
import Mathlib.Tactic.Linarith
import Mathlib.Tactic.Positivity
import Mathlib.Data.Rat.Cast.Order
import Mathlib.Algebra.Order.Ring.Rat
import Verif.Spec.MeshZoo
/-
Separation of tetrahedra by planes.
-/
namespace Conmech

open Spec

variable {K : Type} [Field K]

/-- The value of an affine function at a point of a tetrahedron. -/
theorem affine_tet (t : Tet K) (x : K × K × K) (n1 n2 n3 d : K) :
    t.det * (n1 * x.1 + n2 * x.2.1 + n3 * x.2.2 + d) =
      orient3 x t.2.1 t.2.2.1 t.2.2.2 * (n1 * t.1.1 + n2 * t.1.2.1 + n3 * t.1.2.2 + d) +
      orient3 t.1 x t.2.2.1 t.2.2.2 * (n1 * t.2.1.1 + n2 * t.2.1.2.1 + n3 * t.2.1.2.2 + d) +
      orient3 t.1 t.2.1 x t.2.2.2 * (n1 * t.2.2.1.1 + n2 * t.2.2.1.2.1 + n3 * t.2.2.1.2.2 + d) +
      orient3 t.1 t.2.1 t.2.2.1 x *
        (n1 * t.2.2.2.1 + n2 * t.2.2.2.2.1 + n3 * t.2.2.2.2.2 + d) := by
  obtain ⟨⟨a1, a2, a3⟩, ⟨b1, b2, b3⟩, ⟨c1, c2, c3⟩, ⟨d1, d2, d3⟩⟩ := t
  obtain ⟨x1, x2, x3⟩ := x
  simp only [Tet.det, orient3]
  ring

/-- The four corners. -/
def cornerList (t : Tet K) : List (K × K × K) := [t.1, t.2.1, t.2.2.1, t.2.2.2]

theorem orient3_affine (p q r : K × K × K) : ∃ n1 n2 n3 d : K, ∀ x : K × K × K,
    orient3 p q r x = n1 * x.1 + n2 * x.2.1 + n3 * x.2.2 + d := by
  obtain ⟨p1, p2, p3⟩ := p
  obtain ⟨q1, q2, q3⟩ := q
  obtain ⟨r1, r2, r3⟩ := r
  refine ⟨(q2 - p2) * (r3 - p3) - (q3 - p3) * (r2 - p2),
    (q3 - p3) * (r1 - p1) - (q1 - p1) * (r3 - p3),
    (q1 - p1) * (r2 - p2) - (q2 - p2) * (r1 - p1),
    -(((q2 - p2) * (r3 - p3) - (q3 - p3) * (r2 - p2)) * p1 +
      ((q3 - p3) * (r1 - p1) - (q1 - p1) * (r3 - p3)) * p2 +
      ((q1 - p1) * (r2 - p2) - (q2 - p2) * (r1 - p1)) * p3), ?_⟩
  rintro ⟨x1, x2, x3⟩
  simp only [orient3]
  ring

/-- A plane through three points at the corners of a tetrahedron and at an arbitrary point. -/
theorem plane_tet (t : Tet K) (x p q r : K × K × K) :
    t.det * orient3 p q r x =
      orient3 x t.2.1 t.2.2.1 t.2.2.2 * orient3 p q r t.1 +
      orient3 t.1 x t.2.2.1 t.2.2.2 * orient3 p q r t.2.1 +
      orient3 t.1 t.2.1 x t.2.2.2 * orient3 p q r t.2.2.1 +
      orient3 t.1 t.2.1 t.2.2.1 x * orient3 p q r t.2.2.2 := by
  obtain ⟨n1, n2, n3, d, h⟩ := orient3_affine p q r
  simp only [h]
  exact affine_tet t x n1 n2 n3 d

variable [LinearOrder K] [IsStrictOrderedRing K]

/-- The plane through three points has the first tetrahedron on one side, not in it, and the second
one on the other side. -/
def SeparatedBy (p q r : K × K × K) (s t : Tet K) : Prop :=
  (∀ v ∈ cornerList s, 0 ≤ orient3 p q r v) ∧ (∃ v ∈ cornerList s, 0 < orient3 p q r v) ∧
    ∀ v ∈ cornerList t, orient3 p q r v ≤ 0

theorem disjoint_of_separated {p q r : K × K × K} {s t : Tet K} (hs : 0 < s.det) (ht : 0 < t.det)
    (h : SeparatedBy p q r s t) (x : K × K × K) (hxs : s.Inside x) (hxt : t.Inside x) : False := by
  obtain ⟨h1, h2, h3⟩ := h
  have es := plane_tet s x p q r
  have et := plane_tet t x p q r
  simp only [Tet.Inside, Tet.coords, List.mem_cons, List.not_mem_nil, or_false, forall_eq_or_imp,
    forall_eq] at hxs hxt
  simp only [cornerList, List.mem_cons, List.not_mem_nil, or_false, forall_eq_or_imp,
    forall_eq, exists_eq_or_imp, exists_eq_left] at h1 h2 h3
  obtain ⟨a1, a2, a3, a4⟩ := hxs
  obtain ⟨b1, b2, b3, b4⟩ := hxt
  obtain ⟨c1, c2, c3, c4⟩ := h1
  obtain ⟨d1, d2, d3, d4⟩ := h3
  have e1 := mul_nonneg a1.le c1
  have e2 := mul_nonneg a2.le c2
  have e3 := mul_nonneg a3.le c3
  have e4 := mul_nonneg a4.le c4
  have f1 := mul_nonpos_of_nonneg_of_nonpos b1.le d1
  have f2 := mul_nonpos_of_nonneg_of_nonpos b2.le d2
  have f3 := mul_nonpos_of_nonneg_of_nonpos b3.le d3
  have f4 := mul_nonpos_of_nonneg_of_nonpos b4.le d4
  have hneg : orient3 p q r x ≤ 0 := by
    have : t.det * orient3 p q r x ≤ 0 := by linarith
    by_contra hc
    have := mul_pos ht (not_le.mp hc)
    linarith
  have hpos : 0 < s.det * orient3 p q r x := by
    rcases h2 with h2 | h2 | h2 | h2
    · have := mul_pos a1 h2; linarith
    · have := mul_pos a2 h2; linarith
    · have := mul_pos a3 h2; linarith
    · have := mul_pos a4 h2; linarith
  have := mul_nonpos_of_nonneg_of_nonpos hs.le hneg
  linarith

/-- The faces of a positively oriented tetrahedron, seen from inside. -/
def facePlanes (t : Tet K) : List ((K × K × K) × (K × K × K) × (K × K × K)) :=
  [(t.2.1, t.2.2.2, t.2.2.1), (t.1, t.2.2.1, t.2.2.2), (t.1, t.2.2.2, t.2.1), (t.1, t.2.1, t.2.2.1)]

/-- One of the faces of one of the tetrahedra separates them. -/
def FaceSeparated (s t : Tet K) : Prop :=
  (∃ f ∈ facePlanes s, SeparatedBy f.1 f.2.1 f.2.2 s t) ∨
    ∃ f ∈ facePlanes t, SeparatedBy f.1 f.2.1 f.2.2 t s

instance (s t : Tet ℚ) : Decidable (FaceSeparated s t) := by
  unfold FaceSeparated SeparatedBy; infer_instance

/-- A point with rational coordinates. -/
def castPoint (K : Type) [Field K] (p : ℚ × ℚ × ℚ) : K × K × K := (p.1, p.2.1, p.2.2)

/-- A tetrahedron with rational corners. -/
def castTet (K : Type) [Field K] (t : Tet ℚ) : Tet K :=
  (castPoint K t.1, castPoint K t.2.1, castPoint K t.2.2.1, castPoint K t.2.2.2)

theorem orient3_cast (p q r s : ℚ × ℚ × ℚ) :
    orient3 (castPoint K p) (castPoint K q) (castPoint K r) (castPoint K s) =
      ((orient3 p q r s : ℚ) : K) := by
  simp only [orient3, castPoint]
  push_cast
  ring

theorem separatedBy_cast {p q r : ℚ × ℚ × ℚ} {s t : Tet ℚ} (h : SeparatedBy p q r s t) :
    SeparatedBy (castPoint K p) (castPoint K q) (castPoint K r) (castTet K s) (castTet K t) := by
  obtain ⟨h1, h2, h3⟩ := h
  simp only [cornerList, List.mem_cons, List.not_mem_nil, or_false, forall_eq_or_imp,
    forall_eq, exists_eq_or_imp, exists_eq_left] at h1 h2 h3
  simp only [SeparatedBy, castTet, cornerList, List.mem_cons, List.not_mem_nil, or_false,
    forall_eq_or_imp, forall_eq, exists_eq_or_imp, exists_eq_left, orient3_cast, Rat.cast_nonneg,
    Rat.cast_pos, Rat.cast_nonpos]
  exact ⟨h1, h2, h3⟩

theorem det_cast (t : Tet ℚ) : (castTet K t).det = ((t.det : ℚ) : K) := by
  simp only [Tet.det, castTet, orient3_cast]

/-- Tetrahedra separated by faces have disjoint interiors over every field. -/
theorem disjoint_of_faceSeparated {s t : Tet ℚ} (hs : 0 < s.det) (ht : 0 < t.det)
    (h : FaceSeparated s t) (x : K × K × K) (hxs : (castTet K s).Inside x) :
    ¬ (castTet K t).Inside x := by
  intro hxt
  have hs' : 0 < (castTet K s).det := by rw [det_cast]; exact_mod_cast hs
  have ht' : 0 < (castTet K t).det := by rw [det_cast]; exact_mod_cast ht
  rcases h with ⟨f, -, h⟩ | ⟨f, -, h⟩
  · exact disjoint_of_separated hs' ht' (separatedBy_cast h) x hxs hxt
  · exact disjoint_of_separated ht' hs' (separatedBy_cast h) x hxt hxs

end Conmech
