import Verif.Model.Cost
/-!
Specification for C47-C49, C58, C64-C67: convex functions, subgradients, fields given by flat vectors
and the contact functional as a quadrature.
-/
namespace Conmech.Spec

variable {K : Type _} [Field K] [LinearOrder K]

/-- A convex function of one variable. -/
def Convex1 (f : K → K) : Prop :=
  ∀ x y a b, 0 ≤ a → 0 ≤ b → a + b = 1 → f (a * x + b * y) ≤ a * f x + b * f y

/-- `p` is a subgradient of `f` at `x`. -/
def IsSubgradient (f : K → K) (p x : K) : Prop := ∀ y, f x + p * (y - x) ≤ f y

/-- A convex function of a vector. -/
def ConvexVec (f : (ℕ → K) → K) : Prop :=
  ∀ x y a b, 0 ≤ a → 0 ≤ b → a + b = 1 → f (fun i => a * x i + b * y i) ≤ a * f x + b * f y

/-- A function of a vector that has a subgradient with respect to the first `n` entries. -/
def IsSubgradientVec (n : ℕ) (f : (ℕ → K) → K) (p x : ℕ → K) : Prop :=
  ∀ y, f x + ∑ i ∈ Finset.range n, p i * (y i - x i) ≤ f y

omit [LinearOrder K] in
/-- The field with value `v node i` at a node is given by the unknowns `var`, which belong to the
first nodes, and for the remaining nodes by `old`. -/
structure Represents (dim : ℕ) (var old : Flat K) (v : ℕ → ℕ → K) (nodesCount : ℕ) : Prop where
  positive : 0 < dim
  known : ∃ C, var.size = dim * C ∧
    (∀ i < dim, ∀ node < C, var.get (i * C + node) = v node i) ∧
    ∀ i < dim, ∀ node, C ≤ node → node < nodesCount →
      old.get (i * (old.size / dim) + node) = v node i

/-- The mean of the field over the nodes of an edge. -/
def meanOver (edge : List ℕ) (v : ℕ → ℕ → K) (i : ℕ) : K :=
  (edge.map fun node => v node i).sum / (edge.length : K)

/-- The normal component; scalar fields have no direction. -/
def normalComponent (dim : ℕ) (x n : ℕ → K) : K :=
  if dim = 1 then x 0 else ∑ i ∈ Finset.range dim, x i * n i

/-- The tangential component, `x - (x·n) n`. -/
def tangentialComponent (dim : ℕ) (x n : ℕ → K) : List K :=
  if dim = 1 then [] else (List.range dim).map fun i => x i - normalComponent dim x n * n i

/-- The contact density of a law at a point of a surface: `bound * potential` for the normal and the
tangential direction. `sn` and `st` are the normal and tangential static displacements. -/
def density (c : Conditions K) (dim : ℕ) (n : ℕ → K) (sn : K) (st : List K) (dt : K) (x : ℕ → K) : K :=
  c.normalBound (normalComponent dim x n) sn dt * c.normal (normalComponent dim x n) sn dt +
    c.tangentialBound (normalComponent dim x n) sn dt *
      c.tangential (tangentialComponent dim x n) st dt

/-- The quadrature rule on an edge with weight `length`: the mean of the values at the middle and at
the nodes. -/
def quadrature (edge : List ℕ) (length : K) (g : (ℕ → K) → K) (v : ℕ → ℕ → K) : K :=
  length / ((edge.length + 1 : ℕ) : K) *
    (g (meanOver edge v) + (edge.map fun node => g (v node)).sum)

end Conmech.Spec
