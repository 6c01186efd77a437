import Verif.Spec.ContactSteps
import Verif.Spec.Motion
import Verif.Model.Constrained
/-
Specification for C114: very stiff obstacles and walls of a given temperature.
-/
namespace Conmech.Spec

/-- Has the given values on the supports. -/
def HeldTo (n : ℕ) (D : ℕ → Prop) (g x : ℕ → ℝ) : Prop := ∀ r < n, D r → x r = g r

/-- Least energy, with a further cost `J`, among all fields that have the values `g` on the supports and are
allowed by `Z`. -/
structure LeastUnder (n : ℕ) (D : ℕ → Prop) (g : ℕ → ℝ) (S : System ℝ) (J : (ℕ → ℝ) → ℝ)
    (Z : (ℕ → ℝ) → Prop) (x : ℕ → ℝ) : Prop where
  held : HeldTo n D g x
  allowed : Z x
  least : ∀ y, HeldTo n D g y → Z y → energy n S x + J x ≤ energy n S y + J y

/-- The cost is least at the level `b`, and near by it grows at least like a parabola. -/
structure Attracts (b : ℝ) (φ : ℝ → ℝ) : Prop where
  level : φ b = 0
  nonneg : ∀ r, 0 ≤ φ r
  grows : ∀ B, ∃ c, 0 < c ∧ ∀ r, |r - b| ≤ B → c * (r - b) ^ 2 ≤ φ r

/-- There is no cost up to the level `b`, and behind it the cost grows at least like a parabola. -/
structure Repels (b : ℝ) (φ : ℝ → ℝ) : Prop where
  before : ∀ r ≤ b, φ r = 0
  nonneg : ∀ r, 0 ≤ φ r
  grows : ∀ B, ∃ c, 0 < c ∧ ∀ r, b ≤ r → r ≤ B → c * (r - b) ^ 2 ≤ φ r

/-- The value of the field `x`, stored coordinate after coordinate, at a node. -/
def atNode (N : ℕ) (x : ℕ → ℝ) (node i : ℕ) : ℝ := x (i * N + node)

/-- The cost of contact with a normal law `φ` and a tangential law `ψ`: for every surface its length times
the mean of the costs in the middle and at the nodes. -/
noncomputable def obstacleCost (dim N : ℕ) (nodes : ℕ → ℕ → ℝ) (surfaces : List (Surface ℝ)) (φ : ℝ → ℝ)
    (ψ : List ℝ → ℝ) (x : ℕ → ℝ) : ℝ :=
  (surfaces.map fun s => quadrature s.edge (surfaceLength Real.sqrt nodes s.edge)
    (fun y => φ (normalComponent dim y s.normal) + ψ (tangentialComponent dim y s.normal))
    (atNode N x)).sum

/-- No node of a contact surface is further than the level `b` in the direction of the normal. -/
def Outside (dim N : ℕ) (surfaces : List (Surface ℝ)) (b : ℝ) (x : ℕ → ℝ) : Prop :=
  ∀ s ∈ surfaces, ∀ node ∈ s.edge, normalComponent dim (atNode N x node) s.normal ≤ b

/-- All contact nodes of a scalar field have the value `b`. -/
def AtLevel (surfaces : List (Surface ℝ)) (b : ℝ) (x : ℕ → ℝ) : Prop :=
  ∀ s ∈ surfaces, ∀ node ∈ s.edge, x node = b

/-- The body can be lifted off the obstacle: there is a motion that moves all contact nodes away from the
obstacle, except those which are held. -/
def CanLift (dim N : ℕ) (D : ℕ → Prop) (surfaces : List (Surface ℝ)) (w : ℕ → ℝ) : Prop :=
  Still (dim * N) D w ∧ ∀ s ∈ surfaces, ∀ node ∈ s.edge, (∀ i < dim, D (i * N + node)) ∨
    normalComponent dim (atNode N w node) s.normal ≤ -1

/-- The tangential cost is convex and changes at a bounded rate. -/
structure Friction (dim : ℕ) (surfaces : List (Surface ℝ)) (ψ : List ℝ → ℝ) : Prop where
  nonneg : ∀ t, 0 ≤ ψ t
  convex : ∀ s ∈ surfaces, ConvexVec fun y => ψ (tangentialComponent dim y s.normal)
  rate : ∃ l, 0 ≤ l ∧ ∀ s ∈ surfaces, ∀ y z : ℕ → ℝ, ψ (tangentialComponent dim y s.normal) -
    ψ (tangentialComponent dim z s.normal) ≤ l * ∑ i ∈ Finset.range dim, |y i - z i|

/-- The length of a vector. -/
noncomputable def vectorLength (t : List ℝ) : ℝ := Real.sqrt (t.map fun a => a ^ 2).sum

/-- A constraint is met where its value is not negative. -/
def Meets (h : (ℕ → ℝ) → Option ℝ) (x : ℕ → ℝ) : Prop := ∃ v, h x = some v ∧ 0 ≤ v

/-- The contract of a minimiser with a constraint: a minimiser among the points that meet it is found whenever
there is one. -/
def ConstrainedContract (minimise : ConstrainedMinimiser ℝ) : Prop :=
  ∀ n (f : (ℕ → ℝ) → ℝ) h guess, (∃ x, Meets h x ∧ ∀ y, Meets h y → f x ≤ f y) →
    Meets h (minimise n f h guess) ∧ ∀ y, Meets h y → f (minimise n f h guess) ≤ f y

/-- Which of the two optimisation methods for static problems suits a body with `N` nodes, the first `C` of
them on contact surfaces: the global one if no contact node is held; the condensed one if the contact nodes
which are held come later, and are held at zero. `len` is the length of the initial guess. -/
inductive MethodFits (N C dim len : ℕ) (D : ℕ → Prop) (g : ℕ → ℝ) (surfaces : List (Surface ℝ)) : SolverClass → Prop
  | global : len = dim * N →
      (∀ s ∈ surfaces, ∀ node ∈ s.edge, node < N ∧ ∀ i < dim, ¬ D (i * N + node)) →
      MethodFits N C dim len D g surfaces .staticGlobal
  | condensed : C ≤ N → SupportsApart N C dim D surfaces →
      HeldOnContact N dim D g surfaces (fun _ => 0) → MethodFits N C dim len D g surfaces .staticSchur

end Conmech.Spec
