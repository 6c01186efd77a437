import Verif.Model.Operators
/-
What operator arithmetic should do.
-/
namespace Conmech.Spec

open Conmech

variable {K : Type} [CommRing K]

/-- The value is an operator of class `c` with the matrix `A` of shape `(rows, cols)`. -/
def IsOperator (m : Memory K) (v : OpValue K) (c : OpClass) (rows cols : ℕ) (A : ℕ → ℕ → K) : Prop :=
  ∃ b, v = .operator c ⟨b, rows, cols⟩ ∧ b < m.next ∧ ∀ i < rows, ∀ j < cols, m.cells b i j = A i j

/-- The statement is not one of the in-place operators. -/
def OutOfPlace : OpStmt K → Prop
  | .iadd _ _ => False
  | .imul _ _ => False
  | .imatmul _ _ => False
  | _ => True

/-- The statement assigns to variable `x`. -/
def Assigns (x : ℕ) : OpStmt K → Prop
  | .assign t _ => t = x
  | .literal t _ => t = x
  | .make t _ _ _ _ => t = x
  | .add t _ _ => t = x
  | .sub t _ _ => t = x
  | .mul t _ _ => t = x
  | .matmul t _ _ => t = x
  | .copy t _ => t = x
  | .block t _ => t = x
  | .iadd t _ => t = x
  | .imul t _ => t = x
  | .imatmul t _ => t = x

/-- The image of a vector under a matrix. -/
def image (A : ℕ → ℕ → K) (cols : ℕ) (v : ℕ → K) (i : ℕ) : K :=
  ∑ j ∈ Finset.range cols, A i j * v j

end Conmech.Spec
