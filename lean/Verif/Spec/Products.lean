import Mathlib.Algebra.Order.Field.Basic
import Mathlib.Data.Nat.Notation
/-
What products have to record, stated without the model.
-/
namespace Conmech.Spec

variable {K : Type}

/-- The keys of a dictionary are distinct. -/
def DistinctKeys {V : Type} (d : List (K × V)) : Prop := (d.map Prod.fst).Nodup

/-- `m` is the least of the values of `f` at `0 … n-1`. -/
def LeastOf [LinearOrder K] (n : ℕ) (f : ℕ → K) (m : K) : Prop :=
  (∃ i, i < n ∧ f i = m) ∧ ∀ i, i < n → m ≤ f i

variable [Field K] [LinearOrder K]

/-- The `k`-th point of a scan. -/
def scanPoint (xmin step : K) (k : ℕ) : K := xmin + (k : K) * step

/-- A root finder that answers whenever the signs at the ends of an interval differ, with a point
of the interval. -/
def Bracketing (find : (K → K) → K → K → Option K) (f : K → K) : Prop :=
  ∀ a b, a < b → f a * f b < 0 → ∃ r, find f a b = some r ∧ a ≤ r ∧ r ≤ b

/-- A root finder that moreover answers with a root. -/
def Exact (find : (K → K) → K → K → Option K) (f : K → K) : Prop :=
  ∀ a b r, a < b → f a * f b < 0 → find f a b = some r → f r = 0

/-- What a scan has to report: the scan points that are zeros, and for two successive scan points
with values of opposite sign the answer of the root finder. -/
def Reported (find : (K → K) → K → K → Option K) (f : K → K) (xmin xmax step z : K) : Prop :=
  (∃ k, scanPoint xmin step k ≤ xmax ∧ f (scanPoint xmin step k) = 0 ∧
    z = scanPoint xmin step k) ∨
  ∃ k, scanPoint xmin step (k + 1) ≤ xmax ∧
    f (scanPoint xmin step k) * f (scanPoint xmin step (k + 1)) < 0 ∧
    find f (scanPoint xmin step k) (scanPoint xmin step (k + 1)) = some z

end Conmech.Spec
