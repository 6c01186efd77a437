import Verif.Model.Running
import Mathlib.Algebra.BigOperators.Group.Finset.Basic
/-
Specification for C36-C41 and C60.
-/
namespace Conmech.Spec

/-- `traj` is an uninterrupted run of `n` steps. -/
def Follows {σ ε : Type} (step : σ → Except ε σ) (n : ℕ) (traj : ℕ → σ) : Prop :=
  ∀ k < n, step (traj k) = .ok (traj (k + 1))

variable {K : Type} [Field K] {V : Type}

/-- What the user can read off a product: name and recorded data. -/
def productContents (store : ProductStore K V) (s : State K) : List (String × String × List (K × V)) :=
  s.products.map fun p => (p.1, (store.get p.2).name, (store.get p.2).data)

/-- What the user can read off a state: all values, and the products with their data. -/
def observe (store : ProductStore K V) (s : State K) :
    Snapshot K × List (String × String × List (K × V)) :=
  (s.toSnapshot, productContents store s)

/-- The positions shown are the initial positions plus the displacement. -/
def Placed (g : Grid K) (s : State K) : Prop :=
  ∀ i j, s.displacedNodes i j = g.nodes i j + s.displacement i j

end Conmech.Spec
