import Mathlib.Data.Nat.Notation
import Mathlib.Algebra.Field.Defs
/-
Model of `conmech/state/state.py` and `conmech/state/products/product.py`.

Arrays of shape (nodes, dimension) are functions of node and coordinate and are held by value. The
products of a state are held by reference, because the caller keeps a reference to every product
that is injected and injects it again for every output. That the arrays of two states are never the
same object is treated separately, in `Model/StateHeap.lean`.
-/
namespace Conmech

/-- Exceptions raised while a simulation is running. -/
inductive RunError (E : Type) where
  /-- raised by `Statement.update` -/
  | statement (e : E)
  /-- `NotImplementedError` of `Product.update`, `conmech/state/products/product.py:26-27` -/
  | notImplemented
  /-- `ValueError`, `conmech/state/state.py:94` and `problem_solver.py:181` -/
  | unknownCoordinates
  /-- not an exception: the model gave up waiting for a loop to end -/
  | unfinished
deriving DecidableEq, Repr

variable {K : Type} [Field K] {V E : Type}

/-- What a state knows about `self.body.mesh`. -/
structure Grid (K : Type) where
  nodesCount : ℕ
  dimension : ℕ
  nodes : ℕ → ℕ → K

/-- The three classes of states with the attribute they add: none for `State`, `temperature` for
`TemperatureState`, `electric_potential` for `PiezoelectricState`. -/
inductive ScalarField (K : Type) where
  | absent
  | temperature (values : ℕ → K)
  | potential (values : ℕ → K)

/-- The numerical attributes of a state. -/
structure Snapshot (K : Type) where
  absement : ℕ → ℕ → K
  displacement : ℕ → ℕ → K
  displacedNodes : ℕ → ℕ → K
  velocity : ℕ → ℕ → K
  scalar : ScalarField K
  time : K

/-- `State`, `TemperatureState`, `PiezoelectricState`. -/
inductive StateKind where
  | plain | temperature | piezoelectric
deriving DecidableEq, Repr

/-- The additional attribute of a new state, `conmech/state/state.py:138, 161`. -/
def StateKind.initial : StateKind → ScalarField K
  | .plain => .absent
  | .temperature => .temperature fun _ => 0
  | .piezoelectric => .potential fun _ => 0

/-- A constitutive law: setup and current values to the stress of each element. -/
abbrev Law (K : Type) := Option ℕ → Snapshot K → ℕ → ℕ → ℕ → K

/-- The attributes of a state, `conmech/state/state.py:11-28, 135-138, 158-161`. `setup` is an opaque
token, `stress` is `__stress`, `products` maps names to product objects. -/
structure State (K : Type) extends Snapshot K where
  products : List (String × ℕ) := []
  setup : Option ℕ := none
  law : Option (Law K) := none
  stress : Option (ℕ → ℕ → ℕ → K) := none

/-- `Product`, `conmech/state/products/product.py:21-27`. `rule` is the value that `update` of the
subclass stores for the current state; it is missing for the base class. `data` is the dictionary in
order of insertion. -/
structure Product (K V : Type) where
  name : String
  rule : Option (Snapshot K → V)
  data : List (K × V)

/-- The product objects that exist, and the number of them. -/
structure ProductStore (K V : Type) where
  get : ℕ → Product K V
  next : ℕ

/-- `d[key] = value` -/
def dictSet {α β : Type} [DecidableEq α] (key : α) (value : β) : List (α × β) → List (α × β)
  | [] => [(key, value)]
  | (k, v) :: rest => if k = key then (k, value) :: rest else (k, v) :: dictSet key value rest

/-- `product.update(state)`: `product.py:26-27` and the subclasses, which all end with
`self.data[state.time] = …`. -/
def Product.update [DecidableEq K] (p : Product K V) (s : Snapshot K) :
    Except (RunError E) (Product K V) :=
  match p.rule with
  | none => .error .notImplemented
  | some f => .ok { p with data := dictSet s.time (f s) p.data }

/-- `Product.copy`, `product.py:32-35`: an object of the base class. -/
def Product.copy (p : Product K V) : Product K V := { name := p.name, rule := none, data := p.data }

/-- Replace a product object. -/
def ProductStore.set (st : ProductStore K V) (id : ℕ) (p : Product K V) : ProductStore K V :=
  { st with get := fun i => if i = id then p else st.get i }

/-- Create a product object. -/
def ProductStore.alloc (st : ProductStore K V) (p : Product K V) : ProductStore K V × ℕ :=
  ({ get := fun i => if i = st.next then p else st.get i, next := st.next + 1 }, st.next)

/-- `for prod in products: prod.update(state)`, `state.py:86-88`. -/
def updateAll [DecidableEq K] (s : Snapshot K) :
    List (String × ℕ) → ProductStore K V → Except (RunError E) (ProductStore K V)
  | [], st => .ok st
  | (_, id) :: rest, st => do
    let p ← (st.get id).update s
    updateAll s rest (st.set id p)

namespace State

/-- `State(body)`, `conmech/state/state.py:11-28, 135-138, 158-161`. -/
def new (g : Grid K) (kind : StateKind) : State K :=
  { absement := fun _ _ => 0, displacement := fun _ _ => 0, displacedNodes := g.nodes
    velocity := fun _ _ => 0, scalar := kind.initial, time := 0 }

/-- `vector.reshape((dimension, -1)).T` for a vector with `dimension * nodesCount` entries. -/
def unflatten (g : Grid K) (vector : ℕ → K) : ℕ → ℕ → K :=
  fun node coordinate => vector (coordinate * g.nodesCount + node)

/-- `array.T.ravel()` for an array with `nodesCount` rows. -/
def flatten (g : Grid K) (array : ℕ → ℕ → K) : ℕ → K :=
  fun k => array (k % g.nodesCount) (k / g.nodesCount)

/-- The assignments of `set_displacement`, `state.py:37-45`; `mesh.nodes` has `nodes_count` rows. -/
def withDisplacement (g : Grid K) (s : State K) (vector : ℕ → K) (time : K)
    (updateAbsement : Bool) : State K :=
  let displacement := unflatten g vector
  let s := { s with
    displacement := displacement
    displacedNodes := fun i j => g.nodes i j + displacement i j }
  let dt := time - s.time
  let s := if updateAbsement then
      { s with absement := fun i j => s.absement i j + dt * displacement i j } else s
  { s with time := time }

/-- The assignments of `set_velocity`, `state.py:49-56`. -/
def withVelocity (g : Grid K) (s : State K) (vector : ℕ → K) (time : K)
    (updateDisplacement : Bool) : State K :=
  let velocity := unflatten g vector
  let s := { s with velocity := velocity }
  let dt := time - s.time
  let s := if updateDisplacement then
      let displacement : ℕ → ℕ → K := fun i j => s.displacement i j + dt * velocity i j
      { s with
        displacement := displacement
        displacedNodes := fun i j => g.nodes i j + displacement i j } else s
  { s with time := time }

/-- `set_displacement`, `conmech/state/state.py:30-46`. -/
def setDisplacement [DecidableEq K] (g : Grid K) (s : State K) (vector : ℕ → K) (time : K)
    (updateAbsement : Bool) (st : ProductStore K V) :
    Except (RunError E) (State K × ProductStore K V) := do
  let s := s.withDisplacement g vector time updateAbsement
  let st ← updateAll s.toSnapshot s.products st
  return (s, st)

/-- `set_velocity`, `conmech/state/state.py:48-57`. -/
def setVelocity [DecidableEq K] (g : Grid K) (s : State K) (vector : ℕ → K) (time : K)
    (updateDisplacement : Bool) (st : ProductStore K V) :
    Except (RunError E) (State K × ProductStore K V) := do
  let s := s.withVelocity g vector time updateDisplacement
  let st ← updateAll s.toSnapshot s.products st
  return (s, st)

/-- `set_temperature` of a `TemperatureState`, `state.py:145-146`, and `set_electric_potential` of a
`PiezoelectricState`, `state.py:163-164`; a plain state has neither. -/
def setScalar (s : State K) (vector : ℕ → K) : State K :=
  match s.scalar with
  | .absent => s
  | .temperature _ => { s with scalar := .temperature vector }
  | .potential _ => { s with scalar := .potential vector }

/-- The property `stress`, `conmech/state/state.py:59-72`: its value and the state afterwards. -/
def getStress (s : State K) : Option (ℕ → ℕ → ℕ → K) × State K :=
  match s.stress, s.law with
  | none, some law =>
    let stress := law s.setup s.toSnapshot
    (some stress, { s with stress := some stress })
  | _, _ => (s.stress, s)

/-- `inject_product`, `state.py:83-84`. -/
def injectProduct (s : State K) (name : String) (id : ℕ) : State K :=
  { s with products := dictSet name id s.products }

/-- `{n: p.copy() for n, p in self.products.items()}`, `state.py:107`. -/
def copyProducts : List (String × ℕ) → ProductStore K V → List (String × ℕ) × ProductStore K V
  | [], st => ([], st)
  | (name, id) :: rest, st =>
    let r := st.alloc (st.get id).copy
    let rs := copyProducts rest r.1
    ((name, r.2) :: rs.1, rs.2)

/-- `copy`, `conmech/state/state.py:96-108, 148-156, 166-174`: setup, law and stress are those of a
new state; the products are copied only by the base class. -/
def copy (g : Grid K) (s : State K) (st : ProductStore K V) : State K × ProductStore K V :=
  let c := { new g .plain with
    absement := s.absement, displacement := s.displacement, displacedNodes := s.displacedNodes
    velocity := s.velocity, time := s.time }
  match s.scalar with
  | .absent =>
    let r := copyProducts s.products st
    ({ c with products := r.1 }, r.2)
  | .temperature values => ({ c with scalar := .temperature values }, st)
  | .potential values => ({ c with scalar := .potential values }, st)

end State

/-- What `State.save` touches: the sources of outer and inner forces of the body and two attributes
of the state. -/
structure SaveContext (F S L : Type) where
  outerSource : Option F
  innerSource : Option F
  setup : Option S
  law : Option L

/-- `State.save`, `conmech/state/state.py:110-127`. `write` stands for opening the file and pickling
what is passed to it; it either succeeds or raises. The result is whether an exception escapes, and
the attributes afterwards. -/
def save {F S L X : Type} (write : SaveContext F S L → Except X Unit) (c : SaveContext F S L) :
    Except X Unit × SaveContext F S L :=
  let fos := c.outerSource
  let c := { c with outerSource := none }
  let fis := c.innerSource
  let c := { c with innerSource := none }
  let s := c.setup
  let c := { c with setup := none }
  let cl := c.law
  let c := { c with law := none }
  match write c with
  | .error e => (.error e, c)
  | .ok () => (.ok (), { c with outerSource := fos, innerSource := fis, setup := s, law := cl })

end Conmech
