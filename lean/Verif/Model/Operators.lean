import Mathlib.Algebra.BigOperators.Group.Finset.Basic
import Mathlib.Algebra.Ring.Defs
/-
Model of `conmech/struct/stiffness_matrix.py`: operators are objects with a reference to an array.
Arrays are two-dimensional and live in buffers; a block of an array is an array in the same buffer.
Programs are sequences of assignments to variables.

Simplified: numpy operands of `+` and `*` are numbers or arrays of the same shape (no broadcasting
along an axis of length one), and operations with an array on the left, which numpy performs by
itself, end with `notModelled`. All numbers have one type.
-/
namespace Conmech

/-- The subclasses of `StiffnessMatrix`. -/
inductive OpClass where
  | SM1 | SM1to2 | SM1to3 | SM2 | SM3
deriving DecidableEq, Repr

/-- `DIMENSION`, `conmech/struct/stiffness_matrix.py:59, 63, 67, 71, 82`. -/
def OpClass.dimension : OpClass → ℕ × ℕ
  | SM1 => (1, 1)
  | SM1to2 => (1, 2)
  | SM1to3 => (1, 3)
  | SM2 => (2, 2)
  | SM3 => (3, 3)

/-- An array: its buffer and its shape. The first entry of an array is the first one of the buffer,
since only leading blocks are taken. -/
structure ArrayRef where
  buffer : ℕ
  rows : ℕ
  cols : ℕ
deriving DecidableEq, Repr

/-- Buffers. -/
structure Memory (K : Type) where
  next : ℕ
  cells : ℕ → ℕ → ℕ → K

/-- A new array. -/
def Memory.alloc {K : Type} (m : Memory K) (rows cols : ℕ) (f : ℕ → ℕ → K) : Memory K × ArrayRef :=
  ({ next := m.next + 1, cells := fun b => if b = m.next then f else m.cells b },
    { buffer := m.next, rows := rows, cols := cols })

/-- `array[:, :] = f` -/
def Memory.store {K : Type} (m : Memory K) (r : ArrayRef) (f : ℕ → ℕ → K) : Memory K :=
  { m with cells := fun b i j =>
      if b = r.buffer ∧ i < r.rows ∧ j < r.cols then f i j else m.cells b i j }

/-- `array[i, j]` -/
def Memory.entry {K : Type} (m : Memory K) (r : ArrayRef) (i j : ℕ) : K := m.cells r.buffer i j

/-- The values of variables. -/
inductive OpValue (K : Type) where
  | none
  | number (k : K)
  | array (r : ArrayRef)
  | operator (c : OpClass) (r : ArrayRef)

/-- The ways in which an operation fails. -/
inductive OpError where
  | assertion | type | shape | attribute | notModelled
deriving DecidableEq, Repr

section

variable {K : Type} [CommRing K]

/-- The matrix that `+`, `+=`, `*` and `*=` combine with the array `r`: another array of the same shape
or a number. -/
def operand (m : Memory K) (r : ArrayRef) : OpValue K → Except OpError (ℕ → ℕ → K)
  | .number k => .ok fun _ _ => k
  | .array s => if s.rows = r.rows ∧ s.cols = r.cols then .ok (m.entry s) else .error .shape
  | .none => .error .type
  | .operator _ _ => .error .notModelled

/-- The operand of `__add__` and `__iadd__`, `conmech/struct/stiffness_matrix.py:8-12, 15-18`. -/
def addOperand (m : Memory K) (c : OpClass) (r : ArrayRef) :
    OpValue K → Except OpError (ℕ → ℕ → K)
  | .operator d s =>
    if c.dimension = d.dimension then operand m r (.array s) else .error .assertion
  | y => operand m r y

/-- The result of an operation: a value and the memory, or an exception. -/
abbrev OpResult (K : Type) := Except OpError (Memory K × OpValue K)

/-- `StiffnessMatrix.__add__`, `conmech/struct/stiffness_matrix.py:14-18`. -/
def opAdd (m : Memory K) (c : OpClass) (r : ArrayRef) (y : OpValue K) :
    Except OpError (Memory K × OpValue K) := do
  let f ← addOperand m c r y
  let (m, t) := m.alloc r.rows r.cols fun i j => m.entry r i j + f i j
  return (m, .operator c t)

/-- `x + y`: `__add__` of an operator, or `__radd__` if a number is on the left,
`conmech/struct/stiffness_matrix.py:14-21`. There is no sum of a number with nothing. -/
def pyAdd (m : Memory K) : OpValue K → OpValue K → OpResult K
  | .operator c r, y => opAdd m c r y
  | .number k, .operator c r => opAdd m c r (.number k)
  | .number k, .number l => .ok (m, .number (k + l))
  | .none, _ => .error .type
  | .number _, .none => .error .type
  | .array _, .none => .error .type
  | _, _ => .error .notModelled

/-- `x - y`: `StiffnessMatrix` has neither `__sub__` nor `__rsub__`,
`conmech/struct/stiffness_matrix.py:1-55`. -/
def pySub (m : Memory K) : OpValue K → OpValue K → OpResult K
  | .number k, .number l => .ok (m, .number (k - l))
  | .operator _ _, _ => .error .type
  | _, .operator _ _ => .error .type
  | .none, _ => .error .type
  | _, .none => .error .type
  | _, _ => .error .notModelled

/-- `StiffnessMatrix.__mul__`, `conmech/struct/stiffness_matrix.py:26-27`. -/
def opMul (m : Memory K) (c : OpClass) (r : ArrayRef) (y : OpValue K) :
    Except OpError (Memory K × OpValue K) := do
  let f ← operand m r y
  let (m, t) := m.alloc r.rows r.cols fun i j => m.entry r i j * f i j
  return (m, .operator c t)

/-- `x * y`: `__mul__` of an operator, or `__rmul__` if a number is on the left,
`conmech/struct/stiffness_matrix.py:26-30`. -/
def pyMul (m : Memory K) : OpValue K → OpValue K → OpResult K
  | .operator c r, y => opMul m c r y
  | .number k, .operator c r => opMul m c r (.number k)
  | .number k, .number l => .ok (m, .number (k * l))
  | .none, _ => .error .type
  | .number _, .none => .error .type
  | .array _, .none => .error .type
  | _, _ => .error .notModelled

/-- The product of two matrices. -/
def matProduct (m : Memory K) (r s : ArrayRef) (i j : ℕ) : K :=
  ∑ k ∈ Finset.range r.cols, m.entry r i k * m.entry s k j

/-- The array that is on the right side of `@`, `conmech/struct/stiffness_matrix.py:39-41, 44-47`. -/
def matOperand : OpValue K → Except OpError ArrayRef
  | .operator _ s => .ok s
  | .array s => .ok s
  | .number _ => .error .shape
  | .none => .error .type

/-- `x @ y`, `conmech/struct/stiffness_matrix.py:38-41`. The result is an array. -/
def pyMatmul (m : Memory K) : OpValue K → OpValue K → Except OpError (Memory K × OpValue K)
  | .operator _ r, y => do
    let s ← matOperand y
    if r.cols = s.rows then
      let (m, t) := m.alloc r.rows s.cols (matProduct m r s)
      return (m, .array t)
    else .error .shape
  | .none, _ => .error .type
  | .number _, _ => .error .type
  | _, _ => .error .notModelled

/-- `x @ v` for a vector, `conmech/struct/stiffness_matrix.py:41`. -/
def arrayVec (m : Memory K) (r : ArrayRef) (v : ℕ → K) (i : ℕ) : K :=
  ∑ j ∈ Finset.range r.cols, m.entry r i j * v j

/-- `x.copy()`, `conmech/struct/stiffness_matrix.py:32-33`. -/
def pyCopy (m : Memory K) : OpValue K → OpResult K
  | .operator c r =>
    let (m, t) := m.alloc r.rows r.cols (m.entry r)
    .ok (m, .operator c t)
  | .array r =>
    let (m, t) := m.alloc r.rows r.cols (m.entry r)
    .ok (m, .array t)
  | _ => .error .attribute

/-- `x.SM1`, `conmech/struct/stiffness_matrix.py:74-78, 85-89`. -/
def pyBlock (m : Memory K) : OpValue K → OpResult K
  | .operator .SM2 r => .ok (m, .operator .SM1 { r with rows := r.rows / 2, cols := r.cols / 2 })
  | .operator .SM3 r => .ok (m, .operator .SM1 { r with rows := r.rows / 3, cols := r.cols / 3 })
  | _ => .error .attribute

/-- `x += y`, `conmech/struct/stiffness_matrix.py:7-12`: the method returns nothing, and the result of
the method is assigned to the variable. -/
def pyIadd (m : Memory K) : OpValue K → OpValue K → Except OpError (Memory K × OpValue K)
  | .operator c r, y => do
    let f ← addOperand m c r y
    return (m.store r fun i j => m.entry r i j + f i j, .none)
  | x, y => pyAdd m x y

/-- `x *= y`, `conmech/struct/stiffness_matrix.py:23-24`. -/
def pyImul (m : Memory K) : OpValue K → OpValue K → Except OpError (Memory K × OpValue K)
  | .operator _ r, y => do
    let f ← operand m r y
    return (m.store r fun i j => m.entry r i j * f i j, .none)
  | x, y => pyMul m x y

/-- `x @= y`, `conmech/struct/stiffness_matrix.py:43-47`. The product has to have the shape of the
left side. -/
def pyImatmul (m : Memory K) : OpValue K → OpValue K → Except OpError (Memory K × OpValue K)
  | .operator _ r, y => do
    let s ← matOperand y
    if r.cols = s.rows ∧ s.cols = r.cols then return (m.store r (matProduct m r s), .none)
    else .error .shape
  | x, y => pyMatmul m x y

/-- Assignments. Variables are numbered. -/
inductive OpStmt (K : Type) where
  | assign (t x : ℕ)
  | literal (t : ℕ) (k : K)
  | make (t : ℕ) (c : OpClass) (rows cols : ℕ) (f : ℕ → ℕ → K)
  | add (t x y : ℕ)
  | sub (t x y : ℕ)
  | mul (t x y : ℕ)
  | matmul (t x y : ℕ)
  | copy (t x : ℕ)
  | block (t x : ℕ)
  | iadd (x y : ℕ)
  | imul (x y : ℕ)
  | imatmul (x y : ℕ)

/-- The variables and the memory. -/
structure OpState (K : Type) where
  vars : ℕ → OpValue K
  memory : Memory K

/-- Assignment of a result to a variable. -/
def OpState.put (t : ℕ) (s : OpState K) (r : OpResult K) : Except OpError (OpState K) :=
  match r with
  | .ok (m, v) => .ok { vars := fun x => if x = t then v else s.vars x, memory := m }
  | .error e => .error e

/-- One statement. -/
def OpState.step (s : OpState K) : OpStmt K → Except OpError (OpState K)
  | .assign t x => s.put t (.ok (s.memory, s.vars x))
  | .literal t k => s.put t (.ok (s.memory, .number k))
  | .make t c rows cols f =>
    s.put t (.ok ((s.memory.alloc rows cols f).1, .operator c (s.memory.alloc rows cols f).2))
  | .add t x y => s.put t (pyAdd s.memory (s.vars x) (s.vars y))
  | .sub t x y => s.put t (pySub s.memory (s.vars x) (s.vars y))
  | .mul t x y => s.put t (pyMul s.memory (s.vars x) (s.vars y))
  | .matmul t x y => s.put t (pyMatmul s.memory (s.vars x) (s.vars y))
  | .copy t x => s.put t (pyCopy s.memory (s.vars x))
  | .block t x => s.put t (pyBlock s.memory (s.vars x))
  | .iadd x y => s.put x (pyIadd s.memory (s.vars x) (s.vars y))
  | .imul x y => s.put x (pyImul s.memory (s.vars x) (s.vars y))
  | .imatmul x y => s.put x (pyImatmul s.memory (s.vars x) (s.vars y))

/-- A program. -/
def OpState.run (s : OpState K) : List (OpStmt K) → Except OpError (OpState K)
  | [] => .ok s
  | p :: rest => do
    let s ← s.step p
    s.run rest

end

end Conmech
