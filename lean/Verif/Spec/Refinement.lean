import Verif.Spec.Assembly
/-
Specification for C104: one triangular mesh refines another.

`nodes`, `elements` are the coarse mesh and `nodes'`, `elements'` the fine one; `parent s` is the number
of the coarse triangle in which the fine triangle number `s` lies.
-/
namespace Conmech.Spec

variable {K : Type _} [Field K]

/-- The affine function `c + G · x` at a point of the plane. -/
def affineAt (c : K) (G x : ℕ → K) : K := c + (G 0 * x 0 + G 1 * x 1)

/-- The nodal field `x` has the values of the affine function at the corners of the element. -/
def AffineOn (nodes : ℕ → ℕ → K) (e : List ℕ) (x : ℕ → K) (c : K) (G : ℕ → K) : Prop :=
  ∀ i < 3, valuesOn e x i = affineAt c G (vertices nodes e i)

/-- The integral of an affine function over a triangle. -/
def integralOn [LinearOrder K] (X : ℕ → ℕ → K) (c : K) (G : ℕ → K) : K :=
  area X * ((affineAt c G (X 0) + affineAt c G (X 1) + affineAt c G (X 2)) / 3)

/-- The integrals of affine functions over each coarse triangle are the sums of the integrals over the
fine triangles which belong to it. -/
structure Refines [LinearOrder K] (parent : ℕ → ℕ) (nodes : ℕ → ℕ → K) (elements : List (List ℕ))
    (nodes' : ℕ → ℕ → K) (elements' : List (List ℕ)) : Prop where
  parent_lt : ∀ s < elements'.length, parent s < elements.length
  integral : ∀ t < elements.length, ∀ (c : K) (G : ℕ → K),
    ∑ s ∈ (Finset.range elements'.length).filter (fun s => parent s = t),
      integralOn (vertices nodes' (elements'.getD s [])) c G =
    integralOn (vertices nodes (elements.getD t [])) c G

/-- The fine field `y` is the coarse field `x`: where `x` is affine, `y` is the same affine function. -/
def SameFunction (parent : ℕ → ℕ) (nodes : ℕ → ℕ → K) (elements : List (List ℕ))
    (nodes' : ℕ → ℕ → K) (elements' : List (List ℕ)) (x y : ℕ → K) : Prop :=
  ∀ s < elements'.length, ∀ (c : K) (G : ℕ → K),
    AffineOn nodes (elements.getD (parent s) []) x c G →
    AffineOn nodes' (elements'.getD s []) y c G

/-- Sides of triangles: pairs of different nodes with numbers below `N`. -/
def ValidSides (N : ℕ) (sides : List (List ℕ)) : Prop :=
  ∀ f ∈ sides, f.length = 2 ∧ f.Nodup ∧ ∀ p ∈ f, p < N

/-- The integral of a field that is affine on each of the sides. -/
def sideIntegral (len : (ℕ → ℕ → K) → K) (nodes : ℕ → ℕ → K) (sides : List (List ℕ)) (x : ℕ → K) : K :=
  (sides.map fun f => len (vertices nodes f) * ((valuesOn f x 0 + valuesOn f x 1) / 2)).sum

/-- A mesh with supported nodes and loaded sides. -/
structure SupportedMesh (K : Type _) where
  count : ℕ
  nodes : ℕ → ℕ → K
  elements : List (List ℕ)
  supported : ℕ → Prop
  sides : List (List ℕ)

/-- Every coarse field that vanishes at the supported nodes is also a fine field, which vanishes at the
supported nodes of the fine mesh and has the same integral over the loaded sides. -/
def Carries (len : (ℕ → ℕ → K) → K) (parent : ℕ → ℕ) (m m' : SupportedMesh K) : Prop :=
  ∀ x : ℕ → K, (∀ p < m.count, m.supported p → x p = 0) →
    ∃ y, SameFunction parent m.nodes m.elements m'.nodes m'.elements x y ∧
      (∀ p < m'.count, m'.supported p → y p = 0) ∧
      sideIntegral len m'.nodes m'.sides y = sideIntegral len m.nodes m.sides x

end Conmech.Spec
