import Mathlib.Algebra.Order.Floor.Defs
import Mathlib.Algebra.Order.Field.Basic
/-
Triangulations of a rectangle and triangulated bodies, stated without the model.
-/
namespace Conmech.Spec

variable {K : Type} [Field K]

/-- Twice the signed area of the triangle `p q r`. -/
def orient (p q r : K × K) : K :=
  (q.1 - p.1) * (r.2 - p.2) - (q.2 - p.2) * (r.1 - p.1)

variable [LinearOrder K]

/-- The point `x` lies in the counterclockwise triangle. -/
def InTriangle (t : (K × K) × (K × K) × (K × K)) (x : K × K) : Prop :=
  0 ≤ orient t.1 t.2.1 x ∧ 0 ≤ orient t.2.1 t.2.2 x ∧ 0 ≤ orient t.2.2 t.1 x

/-- The point `x` lies in the interior of the counterclockwise triangle. -/
def InsideTriangle (t : (K × K) × (K × K) × (K × K)) (x : K × K) : Prop :=
  0 < orient t.1 t.2.1 x ∧ 0 < orient t.2.1 t.2.2 x ∧ 0 < orient t.2.2 t.1 x

/-- The area of a counterclockwise triangle. -/
def triArea (t : (K × K) × (K × K) × (K × K)) : K := orient t.1 t.2.1 t.2.2 / 2

/-- The triangle `t` has the corners with the given indices. -/
def HasCorners (nodes : List (K × K)) (e : ℕ × ℕ × ℕ) (t : (K × K) × (K × K) × (K × K)) : Prop :=
  nodes[e.1]? = some t.1 ∧ nodes[e.2.1]? = some t.2.1 ∧ nodes[e.2.2]? = some t.2.2

/-- Triangles that fill the rectangle with corners (0, 0) and (width, height) without overlapping. -/
structure Tiles (triangles : List ((K × K) × (K × K) × (K × K))) (width height : K) : Prop where
  /-- no triangle is degenerate or clockwise -/
  oriented : ∀ t ∈ triangles, 0 < triArea t
  /-- the areas add up -/
  area : (triangles.map triArea).sum = width * height
  /-- every point of the rectangle lies in a triangle -/
  covers : ∀ x y, 0 ≤ x → x ≤ width → 0 ≤ y → y ≤ height → ∃ t ∈ triangles, InTriangle t (x, y)
  /-- no triangle leaves the rectangle -/
  within : ∀ t ∈ triangles, ∀ x y, InTriangle t (x, y) → 0 ≤ x ∧ x ≤ width ∧ 0 ≤ y ∧ y ≤ height
  /-- the interiors of different triangles are disjoint -/
  disjoint : ∀ (m n : ℕ) t u x, triangles[m]? = some t → triangles[n]? = some u →
    InsideTriangle t x → InsideTriangle u x → m = n

end Conmech.Spec

namespace Conmech.Spec

section Space

variable {K : Type} [Field K]

/-- Six times the signed volume of the tetrahedron `p q r s`. -/
def orient3 (p q r s : K × K × K) : K :=
  (q.1 - p.1) * ((r.2.1 - p.2.1) * (s.2.2 - p.2.2) - (r.2.2 - p.2.2) * (s.2.1 - p.2.1)) -
  (q.2.1 - p.2.1) * ((r.1 - p.1) * (s.2.2 - p.2.2) - (r.2.2 - p.2.2) * (s.1 - p.1)) +
  (q.2.2 - p.2.2) * ((r.1 - p.1) * (s.2.1 - p.2.1) - (r.2.1 - p.2.1) * (s.1 - p.1))

/-- Four points. -/
abbrev Tet (K : Type) := (K × K × K) × (K × K × K) × (K × K × K) × (K × K × K)

/-- Six times the signed volume. -/
def Tet.det (t : Tet K) : K := orient3 t.1 t.2.1 t.2.2.1 t.2.2.2

/-- The barycentric coordinates of a point, times `det`. -/
def Tet.coords (t : Tet K) (x : K × K × K) : List K :=
  [orient3 x t.2.1 t.2.2.1 t.2.2.2, orient3 t.1 x t.2.2.1 t.2.2.2, orient3 t.1 t.2.1 x t.2.2.2,
    orient3 t.1 t.2.1 t.2.2.1 x]

variable [LinearOrder K]

/-- The point lies in the tetrahedron, which is positively oriented. -/
def Tet.Contains (t : Tet K) (x : K × K × K) : Prop := ∀ c ∈ t.coords x, 0 ≤ c

/-- The point lies in the interior of the tetrahedron, which is positively oriented. -/
def Tet.Inside (t : Tet K) (x : K × K × K) : Prop := ∀ c ∈ t.coords x, 0 < c

/-- The corners of an element; indices beyond the table give the origin. -/
def corners (nodes : List (K × K × K)) (e : ℕ × ℕ × ℕ × ℕ) : Tet K :=
  (nodes.getD e.1 0, nodes.getD e.2.1 0, nodes.getD e.2.2.1 0, nodes.getD e.2.2.2 0)

/-- Three numbers in increasing order. -/
def sort3 (a b c : ℕ) : ℕ × ℕ × ℕ :=
  (min a (min b c), max (min a b) (min (max a b) c), max a (max b c))

/-- The faces of an element, as increasing triples, each with the opposite corner. -/
def facesOf (e : ℕ × ℕ × ℕ × ℕ) : List ((ℕ × ℕ × ℕ) × ℕ) :=
  [(sort3 e.2.1 e.2.2.1 e.2.2.2, e.1), (sort3 e.1 e.2.2.1 e.2.2.2, e.2.1),
    (sort3 e.1 e.2.1 e.2.2.2, e.2.2.1), (sort3 e.1 e.2.1 e.2.2.1, e.2.2.2)]

/-- All faces of a table of elements. -/
def allFaces (elements : List (ℕ × ℕ × ℕ × ℕ)) : List ((ℕ × ℕ × ℕ) × ℕ) := elements.flatMap facesOf

/-- A point and the side of a face it is on. -/
def side (nodes : List (K × K × K)) (f : ℕ × ℕ × ℕ) (o : ℕ) : K :=
  orient3 (nodes.getD f.1 0) (nodes.getD f.2.1 0) (nodes.getD f.2.2 0) (nodes.getD o 0)

/-- The table of elements refers to existing nodes, all tetrahedra are positively oriented, a face
belongs to one or two tetrahedra, and two tetrahedra with a common face are on different sides of
it. -/
structure Conforming (nodes : List (K × K × K)) (elements : List (ℕ × ℕ × ℕ × ℕ)) : Prop where
  indices : ∀ e ∈ elements, e.1 < nodes.length ∧ e.2.1 < nodes.length ∧ e.2.2.1 < nodes.length ∧
    e.2.2.2 < nodes.length
  used : ∀ i, i < nodes.length → ∃ e ∈ elements, e.1 = i ∨ e.2.1 = i ∨ e.2.2.1 = i ∨ e.2.2.2 = i
  positive : ∀ e ∈ elements, 0 < (corners nodes e).det
  faces : ∀ f ∈ allFaces elements,
    ((allFaces elements).filter fun g => g.1 = f.1).length = 1 ∨
    ((allFaces elements).filter fun g => g.1 = f.1).length = 2
  sides : ∀ f ∈ allFaces elements, ∀ g ∈ allFaces elements, f.1 = g.1 → f.2 ≠ g.2 →
    side nodes f.1 f.2 * side nodes g.1 g.2 < 0
  distinct : (allFaces elements).Nodup

/-- The face belongs to a single tetrahedron. -/
def OuterFace (elements : List (ℕ × ℕ × ℕ × ℕ)) (f : ℕ × ℕ × ℕ) : Prop :=
  ((allFaces elements).filter fun g => g.1 = f).length = 1

/-- The interiors of different tetrahedra are disjoint. -/
def DisjointInteriors (tets : List (Tet K)) : Prop :=
  tets.Pairwise fun s t => ∀ x, s.Inside x → ¬ t.Inside x

end Space

end Conmech.Spec
