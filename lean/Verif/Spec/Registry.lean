import Verif.Model.Problems
import Mathlib.Logic.Relation
/-
Specification for C45: inheritance, independent of the method resolution order.
-/
namespace Conmech.Spec

/-- `c` is `base` or is derived from it. -/
def Inherits (c base : ProblemClass) : Prop :=
  Relation.ReflTransGen (fun a b : ProblemClass => b ∈ a.bases) c base

end Conmech.Spec
