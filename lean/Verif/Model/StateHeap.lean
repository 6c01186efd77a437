import Verif.Model.State
/-
Model of `conmech/state/state.py` in which arrays are objects: a state holds references to buffers,
several references may lead to the same buffer, and assignments to `array[...]` and `array += ...`
change the buffer. Products are left out (they are in `Model/State.lean`).
-/
namespace Conmech

variable {K : Type} [Field K]

/-- The buffers of arrays that exist: flat sequences of numbers. -/
structure Heap (K : Type) where
  get : ℕ → ℕ → K
  next : ℕ

/-- A new buffer. -/
def Heap.alloc (h : Heap K) (content : ℕ → K) : Heap K × ℕ :=
  ({ get := fun b => if b = h.next then content else h.get b, next := h.next + 1 }, h.next)

/-- A two-dimensional array of shape (nodes, dimension): a buffer and how it is read, row by row (an
array made by `np.zeros` or `np.copy`) or column by column (`vector.reshape((dimension, -1)).T`,
which is a view of the vector). -/
structure View where
  buffer : ℕ
  columns : Bool
deriving DecidableEq, Repr

/-- `array[i, j]` -/
def View.read (g : Grid K) (h : Heap K) (v : View) (i j : ℕ) : K :=
  h.get v.buffer (if v.columns then j * g.nodesCount + i else i * g.dimension + j)

/-- `array[:, :] = f` -/
def View.write (g : Grid K) (h : Heap K) (v : View) (f : ℕ → ℕ → K) : Heap K :=
  { h with get := fun b k =>
      if b = v.buffer ∧ k < g.nodesCount * g.dimension then
        if v.columns then f (k % g.nodesCount) (k / g.nodesCount)
        else f (k / g.dimension) (k % g.dimension)
      else h.get b k }

/-- The attribute added by the subclasses, with a reference to its buffer. -/
inductive RefScalar where
  | absent
  | temperature (buffer : ℕ)
  | potential (buffer : ℕ)
deriving DecidableEq, Repr

/-- A state. -/
structure RefState (K : Type) where
  absement : View
  displacement : View
  displacedNodes : View
  velocity : View
  scalar : RefScalar
  time : K

namespace RefState

/-- `State(body)`, `conmech/state/state.py:11-28, 135-138, 158-161`. -/
def new (g : Grid K) (kind : StateKind) (h : Heap K) : RefState K × Heap K :=
  let (h, a) := h.alloc fun _ => 0
  let (h, u) := h.alloc fun _ => 0
  let (h, x) := h.alloc fun k => g.nodes (k / g.dimension) (k % g.dimension)
  let (h, v) := h.alloc fun _ => 0
  let s : RefState K :=
    { absement := ⟨a, false⟩, displacement := ⟨u, false⟩, displacedNodes := ⟨x, false⟩
      velocity := ⟨v, false⟩, scalar := .absent, time := 0 }
  match kind with
  | .plain => (s, h)
  | .temperature => let (h, t) := h.alloc fun _ => 0; ({ s with scalar := .temperature t }, h)
  | .piezoelectric => let (h, t) := h.alloc fun _ => 0; ({ s with scalar := .potential t }, h)

/-- `set_displacement`, `conmech/state/state.py:30-45`; `vector` is a reference to the argument. -/
def setDisplacement (g : Grid K) (h : Heap K) (s : RefState K) (vector : ℕ) (time : K)
    (updateAbsement : Bool) : RefState K × Heap K :=
  let s := { s with displacement := ⟨vector, true⟩ }
  let h := s.displacedNodes.write g h fun i j => g.nodes i j + s.displacement.read g h i j
  let dt := time - s.time
  let h := if updateAbsement then
      s.absement.write g h fun i j => s.absement.read g h i j + dt * s.displacement.read g h i j
    else h
  ({ s with time := time }, h)

/-- `set_velocity`, `conmech/state/state.py:48-56`. -/
def setVelocity (g : Grid K) (h : Heap K) (s : RefState K) (vector : ℕ) (time : K)
    (updateDisplacement : Bool) : RefState K × Heap K :=
  let s := { s with velocity := ⟨vector, true⟩ }
  let dt := time - s.time
  let h := if updateDisplacement then
      let h := s.displacement.write g h fun i j =>
        s.displacement.read g h i j + dt * s.velocity.read g h i j
      s.displacedNodes.write g h fun i j => g.nodes i j + s.displacement.read g h i j
    else h
  ({ s with time := time }, h)

/-- `set_temperature`, `state.py:145-146`, and `set_electric_potential`, `state.py:163-164`. -/
def setScalar (s : RefState K) (vector : ℕ) : RefState K :=
  match s.scalar with
  | .absent => s
  | .temperature _ => { s with scalar := .temperature vector }
  | .potential _ => { s with scalar := .potential vector }

/-- `temperature[:] = values` -/
def writeFlat (g : Grid K) (h : Heap K) (buffer : ℕ) (f : ℕ → K) : Heap K :=
  { h with get := fun b k => if b = buffer ∧ k < g.nodesCount then f k else h.get b k }

/-- `copy`, `conmech/state/state.py:96-108, 148-156, 166-174`. -/
def copy (g : Grid K) (h : Heap K) (s : RefState K) : RefState K × Heap K :=
  let kind := match s.scalar with
    | .absent => .plain
    | .temperature _ => .temperature
    | .potential _ => .piezoelectric
  let (c, h) := new g kind h
  let h := c.absement.write g h (s.absement.read g h)
  let h := c.displacement.write g h (s.displacement.read g h)
  let h := c.displacedNodes.write g h (s.displacedNodes.read g h)
  let h := c.velocity.write g h (s.velocity.read g h)
  let c := { c with time := s.time }
  match s.scalar, c.scalar with
  | .temperature b, .temperature b' => (c, writeFlat g h b' (h.get b))
  | .potential b, .potential b' => (c, writeFlat g h b' (h.get b))
  | _, _ => (c, h)

end RefState

/-- Operations on one state; `vector` refers to the array given by the caller. -/
inductive RefOperation (K : Type) where
  | setDisplacement (vector : ℕ) (time : K) (updateAbsement : Bool)
  | setVelocity (vector : ℕ) (time : K) (updateDisplacement : Bool)
  | setScalar (vector : ℕ)

/-- The array given by the caller. -/
def RefOperation.vector : RefOperation K → ℕ
  | .setDisplacement v _ _ => v
  | .setVelocity v _ _ => v
  | .setScalar v => v

/-- A method of a state is called. -/
def RefOperation.perform (g : Grid K) (h : Heap K) (s : RefState K) :
    RefOperation K → RefState K × Heap K
  | .setDisplacement v t u => s.setDisplacement g h v t u
  | .setVelocity v t u => s.setVelocity g h v t u
  | .setScalar v => (s.setScalar v, h)

/-- What happens in a program that works with several states of one body. -/
inductive Action (K : Type) where
  /-- a method of state number `i` is called -/
  | call (i : ℕ) (op : RefOperation K)
  /-- state number `i` is copied, the copy gets the next number -/
  | copy (i : ℕ)
  /-- the caller makes a new vector -/
  | vector (content : ℕ → K)
  /-- the caller changes the content of an array -/
  | fill (buffer : ℕ) (content : ℕ → K)

/-- The arrays, the states and the attribute `body.state`. -/
structure World (K : Type) where
  heap : Heap K
  count : ℕ
  state : ℕ → RefState K
  bodyState : ℕ

/-- A program with one new state; `State.__init__` sets `body.state`, `state.py:13`. -/
def World.new (g : Grid K) (kind : StateKind) : World K :=
  let r := RefState.new g kind { get := fun _ _ => 0, next := 0 }
  { heap := r.2, count := 1, state := fun _ => r.1, bodyState := 0 }

/-- The effect of an action. -/
def World.act (g : Grid K) (w : World K) : Action K → World K
  | .call i op =>
    let r := op.perform g w.heap (w.state i)
    { w with heap := r.2, state := fun j => if j = i then r.1 else w.state j }
  | .copy i =>
    let r := (w.state i).copy g w.heap
    { heap := r.2, count := w.count + 1, state := fun j => if j = w.count then r.1 else w.state j
      bodyState := w.count }
  | .vector content => { w with heap := (w.heap.alloc content).1 }
  | .fill b content =>
    { w with heap := { w.heap with get := fun b' => if b' = b then content else w.heap.get b' } }

end Conmech
