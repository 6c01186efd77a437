/-
Model of the vector layouts of `conmech/helpers/nph.py` and `conmech/state/state.py`.

A one-dimensional array is a function of its index, a two-dimensional one a function of row and
column; the sizes are passed explicitly.
-/
namespace Conmech

variable {K : Type _}

/-- `a.T` -/
def transposed (a : Nat → Nat → K) : Nat → Nat → K := fun i j => a j i

/-- `a.flatten()` (row by row) of an array with `cols` columns. -/
def flattenC (cols : Nat) (a : Nat → Nat → K) : Nat → K := fun k => a (k / cols) (k % cols)

/-- `v.reshape(rows, -1)` (row by row) of an array of length `len`. -/
def reshapeC (len rows : Nat) (v : Nat → K) : Nat → Nat → K := fun i j => v (i * (len / rows) + j)

/-- `v.reshape(-1, cols, order="F")` (column by column) of an array of length `len`. -/
def reshapeF (len cols : Nat) (v : Nat → K) : Nat → Nat → K := fun i j => v (i + (len / cols) * j)

/-- `nph.stack_column`, `conmech/helpers/nph.py:11-12`, for `nodes` nodal vectors: `data.T` has
`nodes` columns. The final `reshape(-1, 1)` only makes a column of the result. -/
def stackColumn (nodes : Nat) (data : Nat → Nat → K) : Nat → K := flattenC nodes (transposed data)

/-- `nph.unstack`, `conmech/helpers/nph.py:15-16`. -/
def unstack (len dim : Nat) (vector : Nat → K) : Nat → Nat → K := reshapeF len dim vector

/-- `displacement_vector.reshape((dimension, -1)).T`, `conmech/state/state.py:36` and `:47`. -/
def stateReshape (len dim : Nat) (vector : Nat → K) : Nat → Nat → K :=
  transposed (reshapeC len dim vector)

end Conmech
