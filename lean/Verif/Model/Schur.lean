import Verif.Model.Layout
import Verif.Model.Dirichlet
/-
Model of `conmech/solvers/optimization/schur_complement.py`.

`np.linalg.inv` is a parameter; the contract "it returns the inverse" is a hypothesis of the
theorems. Slices `slice(0, contact)` and `slice(contact, nodes)` are pairs (start, stop).
-/
namespace Conmech

variable {K : Type _} [Field K]

/-- `a @ b` with inner size `m`. -/
def matMul (m : ℕ) (a b : ℕ → ℕ → K) : ℕ → ℕ → K := fun i j => ∑ k ∈ Finset.range m, a i k * b k j

/-- `a @ v` with inner size `m`. -/
def matVec (m : ℕ) (a : ℕ → ℕ → K) (v : ℕ → K) : ℕ → K := fun i => ∑ k ∈ Finset.range m, a i k * v k

/-- `np.array(np.split(matrix, dimension, axis=-1))` for a matrix with `width` columns:
axes (block, row, column). -/
def splitLast (dimension width : ℕ) (matrix : ℕ → ℕ → K) : ℕ → ℕ → ℕ → K :=
  fun block row col => matrix row (block * (width / dimension) + col)

/-- `np.array(np.split(a, dimension, axis=1))` for an array with `height` entries along axis 1:
axes (row block, axis 0, row, column). -/
def splitAxis1 (dimension height : ℕ) (a : ℕ → ℕ → ℕ → K) : ℕ → ℕ → ℕ → ℕ → K :=
  fun rowBlock block row col => a block (rowBlock * (height / dimension) + row) col

/-- `matrix_split`, `schur_complement.py:216-218`. -/
def matrixSplit (dimension size : ℕ) (matrix : ℕ → ℕ → K) : ℕ → ℕ → ℕ → ℕ → K :=
  splitAxis1 dimension size (splitLast dimension size matrix)

/-- `get_sliced`, `schur_complement.py:211-214`. -/
def getSliced (split : ℕ → ℕ → ℕ → ℕ → K) (height width : ℕ × ℕ) : ℕ → ℕ → K :=
  -- matrix_split[..., indices_height, indices_width]
  let sliced : ℕ → ℕ → ℕ → ℕ → K := fun a b r c => split a b (height.1 + r) (width.1 + c)
  -- np.moveaxis(_, 1, 2)
  let moved : ℕ → ℕ → ℕ → ℕ → K := fun a r b c => sliced a b r c
  -- reshape(dim * height, dim * width)
  let h := height.2 - height.1
  let w := width.2 - width.1
  fun i j => moved (i / h) (i % h) (j / w) (j % w)

/-- What `calculate_schur_complement_matrices` returns. -/
structure SchurMatrices (K : Type _) where
  boundary : ℕ → ℕ → K
  freeXContact : ℕ → ℕ → K
  contactXFree : ℕ → ℕ → K
  freeXFreeInverted : ℕ → ℕ → K

/-- `calculate_schur_complement_matrices`, `schur_complement.py:208-227`. The sizes of the products
are `dimension` times the number of free nodes. -/
def calculateSchurComplementMatrices (inv : ℕ → (ℕ → ℕ → K) → ℕ → ℕ → K) (matrix : ℕ → ℕ → K)
    (size dimension : ℕ) (contact free : ℕ × ℕ) : SchurMatrices K :=
  let split := matrixSplit dimension size matrix
  let m := dimension * (free.2 - free.1)
  let freeXFree := getSliced split free free
  let freeXContact := getSliced split free contact
  let contactXFree := getSliced split contact free
  let contactXContact := getSliced split contact contact
  let inverted := inv m freeXFree
  { boundary := fun i j =>
      contactXContact i j - matMul m contactXFree (matMul m inverted freeXContact) i j
    freeXContact := freeXContact
    contactXFree := contactXFree
    freeXFreeInverted := inverted }

/-- `calculate_schur_complement_vector`, `schur_complement.py:193-205`: `vector_boundary` and
`vector_free`. -/
def calculateSchurComplementVector (vector : ℕ → K) (size dimension : ℕ) (contact free : ℕ × ℕ)
    (m : SchurMatrices K) : (ℕ → K) × (ℕ → K) :=
  let split := unstack size dimension vector
  let vectorContact := stackColumn (contact.2 - contact.1) fun i j => split (contact.1 + i) j
  let vectorFree := stackColumn (free.2 - free.1) fun i j => split (free.1 + i) j
  let k := dimension * (free.2 - free.1)
  (fun i => vectorContact i - matVec k m.contactXFree (matVec k m.freeXFreeInverted vectorFree) i,
    vectorFree)

/-- The fields of a `SchurComplementOptimization`, `schur_complement.py:32-42`. -/
structure SchurSolver (K : Type _) where
  nodesCount : ℕ
  contactCount : ℕ
  dimension : ℕ
  drivingVector : Bool
  matrices : SchurMatrices K
  nodeForces : ℕ → K
  forcesFree : ℕ → K

namespace SchurSolver

/-- `self.contact_ids`, `schur_complement.py:32` (the contact nodes are among the nodes). -/
def contactIds (contactCount : ℕ) : ℕ × ℕ := (0, contactCount)

/-- `self.free_ids`, `schur_complement.py:33`. -/
def freeIds (nodesCount contactCount : ℕ) : ℕ × ℕ := (contactCount, nodesCount)

/-- `recalculate_forces`, `schur_complement.py:52-63`; the transposition and the flattening only
change a column into a row. -/
def recalculateForces (s : SchurSolver K) (rhs : ℕ → K) : SchurSolver K :=
  let f := calculateSchurComplementVector rhs (s.dimension * s.nodesCount) s.dimension
    (contactIds s.contactCount) (freeIds s.nodesCount s.contactCount) s.matrices
  { s with nodeForces := f.1, forcesFree := f.2 }

/-- `__init__`, `schur_complement.py:16-42`, for the system of the statement. -/
def init (inv : ℕ → (ℕ → ℕ → K) → ℕ → ℕ → K) (nodesCount contactCount dimension : ℕ)
    (drivingVector : Bool) (S : System K) : SchurSolver K :=
  recalculateForces
    { nodesCount := nodesCount, contactCount := contactCount, dimension := dimension
      drivingVector := drivingVector
      matrices := calculateSchurComplementMatrices inv S.lhs (dimension * nodesCount) dimension
        (contactIds contactCount) (freeIds nodesCount contactCount)
      nodeForces := fun _ => 0, forcesFree := fun _ => 0 } S.rhs

/-- `truncate_free_nodes`, `schur_complement.py:108-115`, for an initial guess of length `len`; the
result is read as a flat vector. -/
def truncateFreeNodes (s : SchurSolver K) (len : ℕ) (initialGuess : ℕ → K) : ℕ → K :=
  if s.dimension = 2 ∨ s.drivingVector = true then
    flattenC s.contactCount (reshapeC len 2 initialGuess)
  else
    initialGuess

/-- `complement_free_nodes`, `schur_complement.py:117-126`. -/
def complementFreeNodes (s : SchurSolver K) (truncated : ℕ → K) : ℕ → K :=
  let r := matVec (s.dimension * s.contactCount) s.matrices.freeXContact truncated
  let r := fun i => s.forcesFree i - r i
  matVec (s.dimension * (s.nodesCount - s.contactCount)) s.matrices.freeXFreeInverted r

/-- `np.concatenate((a, b), axis=1)` with `cols` columns in `a`. -/
def concatColumns (cols : ℕ) (a b : ℕ → ℕ → K) : ℕ → ℕ → K :=
  fun i j => if j < cols then a i j else b i (j - cols)

/-- `merge`, `schur_complement.py:128-139`, for vectors of length `lenC` and `lenF`. -/
def merge (s : SchurSolver K) (lenC lenF : ℕ) (contact free : ℕ → K) : ℕ → K :=
  if s.dimension = 2 ∨ s.drivingVector = true then
    flattenC (lenC / 2 + lenF / 2)
      (concatColumns (lenC / 2) (reshapeC lenC 2 contact) (reshapeC lenF 2 free))
  else
    fun k => if k < lenC then contact k else free (k - lenC)

/-- `extender`, `schur_complement.py:91-102`: the vector of length `len` followed by `len` zeros. -/
def extend (len : ℕ) (v : ℕ → K) : ℕ → K := fun k => if k < len then v k else 0

/-- `_solve_impl`, `schur_complement.py:76-106`; `minimise` is the inherited `_solve_impl`, given the
condensed matrix, the condensed forces and the truncated initial guess. -/
def solveImpl (s : SchurSolver K) (minimise : (ℕ → ℕ → K) → (ℕ → K) → (ℕ → K) → ℕ → K)
    (len : ℕ) (initialGuess : ℕ → K) : ℕ → K :=
  let truncated := s.truncateFreeNodes len initialGuess
  -- with a driving vector the second half is cut off, which does not change the remaining entries
  let contact := minimise s.matrices.boundary s.nodeForces truncated
  let free := s.complementFreeNodes contact
  let lenC := s.dimension * s.contactCount
  let lenF := s.dimension * (s.nodesCount - s.contactCount)
  if s.drivingVector then
    s.merge (lenC * 2) (lenF * 2) (extend lenC contact) (extend lenF free)
  else
    s.merge lenC lenF contact free

end SchurSolver
end Conmech
