import Mathlib.Algebra.Order.Field.Basic
import Mathlib.Algebra.BigOperators.Group.List.Basic
import Mathlib.Data.Multiset.Basic
/-
Specification for C102: the sides of a rectangle.
-/
namespace Conmech.Spec

/-- The sides of the rectangle with corners (0, 0) and (width, height). -/
inductive Side where
  | bottom | right | top | left
  deriving DecidableEq

/-- All sides. -/
def Side.all : List Side := [.bottom, .right, .top, .left]

/-- The points with the given numbers, in any order. -/
def endsOf {α : Type} (nodes : List α) (f : List ℕ) : Multiset α := ((f.filterMap (nodes[·]?) : List α))

section
variable {K : Type} [Field K]

/-- The length of a side. -/
def Side.length (width height : K) : Side → K
  | .bottom => width
  | .top => width
  | .right => height
  | .left => height

/-- The point of a side at the given distance from its lower or left end. -/
def Side.at (width height : K) : Side → K → K × K
  | .bottom, t => (t, 0)
  | .top, t => (t, height)
  | .left, t => (0, t)
  | .right, t => (width, t)

/-- The number of parts of a side. -/
def Side.parts (sx sy : ℕ) : Side → ℕ
  | .bottom => sx
  | .top => sx
  | .right => sy
  | .left => sy

/-- The length of a part of a side. -/
def Side.part (sx sy : ℕ) (width height : K) (s : Side) : K := s.length width height / (s.parts sx sy : K)

/-- The ends of the segments of the same length into which the sides are divided. -/
def sideSegments (sx sy : ℕ) (width height : K) : List ((K × K) × (K × K)) :=
  Side.all.flatMap fun s => (List.range (s.parts sx sy)).map fun n =>
    (s.at width height (n * s.part sx sy width height),
      s.at width height ((n + 1) * s.part sx sy width height))

/-- The arithmetic mean of points of the plane. -/
def centre (l : List (K × K)) : K × K :=
  ((l.map Prod.fst).sum / l.length, (l.map Prod.snd).sum / l.length)

/-- The total length of the sides that are chosen. -/
def sidesLength (width height : K) (chosen : Side → Bool) : K :=
  (Side.all.map fun s => if chosen s then s.length width height else 0).sum

variable [LinearOrder K]

/-- The point lies on the side. -/
def Side.On (width height : K) (s : Side) (p : K × K) : Prop :=
  ∃ t, 0 ≤ t ∧ t ≤ s.length width height ∧ p = s.at width height t

/-- Apart from the corners, the predicate holds on the whole of the chosen sides and nowhere on the
other ones. -/
def ChoosesSides (width height : K) (P : K × K → Bool) (chosen : Side → Bool) : Prop :=
  ∀ (s : Side) (t : K), 0 < t → t < s.length width height → P (s.at width height t) = chosen s

/-- Apart from the corners, the predicate holds on the sides exactly at the points of one side that are
between the given distances from its end. -/
def ChoosesPart (width height : K) (P : K × K → Bool) (s : Side) (a b : K) : Prop :=
  ∀ (s' : Side) (t : K), 0 < t → t < s'.length width height →
    P (s'.at width height t) = decide (s' = s ∧ a ≤ t ∧ t ≤ b)

end
end Conmech.Spec
