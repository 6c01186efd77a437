import Verif.Model.StateHeap
/-
Specification for C43: states as plain values.
-/
namespace Conmech.Spec
open Conmech

variable {K : Type} [Field K]

/-- The additional attribute has the given values. -/
def ScalarShows (g : Grid K) (h : Heap K) : RefScalar → ScalarField K → Prop
  | .absent, .absent => True
  | .temperature b, .temperature f => ∀ k < g.nodesCount, h.get b k = f k
  | .potential b, .potential f => ∀ k < g.nodesCount, h.get b k = f k
  | _, _ => False

/-- The values of a state seen by the user. -/
structure Shows (g : Grid K) (h : Heap K) (s : RefState K) (v : Snapshot K) : Prop where
  absement : ∀ i < g.nodesCount, ∀ j < g.dimension, s.absement.read g h i j = v.absement i j
  displacement : ∀ i < g.nodesCount, ∀ j < g.dimension,
    s.displacement.read g h i j = v.displacement i j
  displacedNodes : ∀ i < g.nodesCount, ∀ j < g.dimension,
    s.displacedNodes.read g h i j = v.displacedNodes i j
  velocity : ∀ i < g.nodesCount, ∀ j < g.dimension, s.velocity.read g h i j = v.velocity i j
  scalar : ScalarShows g h s.scalar v.scalar
  time : s.time = v.time

/-- The effect of a method on the values; `x` is the content of the vector at the time of the call. -/
def valueOf (g : Grid K) (x : ℕ → K) (v : Snapshot K) : RefOperation K → Snapshot K
  | .setDisplacement _ t u => (({ toSnapshot := v } : State K).withDisplacement g x t u).toSnapshot
  | .setVelocity _ t u => (({ toSnapshot := v } : State K).withVelocity g x t u).toSnapshot
  | .setScalar _ => (({ toSnapshot := v } : State K).setScalar x).toSnapshot

/-- States that share nothing: an action changes only the state it is addressed to, and a copy gets
the values of the original. -/
def valueAct (g : Grid K) (w : World K) (v : ℕ → Snapshot K) : Action K → ℕ → Snapshot K
  | .call i op => fun j => if j = i then valueOf g (w.heap.get op.vector) (v i) op else v j
  | .copy i => fun j => if j = w.count then v i else v j
  | .vector _ => v
  | .fill _ _ => v

/-- The array of the additional attribute. -/
def scalarBuffers : RefScalar → List ℕ
  | .absent => []
  | .temperature b => [b]
  | .potential b => [b]

/-- The arrays a state refers to. -/
def buffers (s : RefState K) : List ℕ :=
  s.absement.buffer :: s.displacement.buffer :: s.displacedNodes.buffer :: s.velocity.buffer ::
    scalarBuffers s.scalar

/-- Some state of the program refers to the array. -/
def InUse (w : World K) (b : ℕ) : Prop := ∃ i < w.count, b ∈ buffers (w.state i)

/-- The caller behaves well: only states and arrays that exist are used, an array handed over to a
state is not one that a state already refers to, and arrays a state refers to are not overwritten. -/
def Fair (w : World K) : Action K → Prop
  | .call i op => i < w.count ∧ op.vector < w.heap.next ∧ ¬ InUse w op.vector
  | .copy i => i < w.count
  | .vector _ => True
  | .fill b _ => b < w.heap.next ∧ ¬ InUse w b

/-- A program together with the values its states should have. -/
def execute (g : Grid K) : List (Action K) → World K → (ℕ → Snapshot K) →
    World K × (ℕ → Snapshot K)
  | [], w, v => (w, v)
  | a :: as, w, v => execute g as (w.act g a) (valueAct g w v a)

/-- All actions of a program are fair. -/
def FairAll (g : Grid K) : List (Action K) → World K → Prop
  | [], _ => True
  | a :: as, w => Fair w a ∧ FairAll g as (w.act g a)

/-- The action calls a method of the state. -/
def Action.addresses (j : ℕ) : Action K → Prop
  | .call i _ => i = j
  | _ => False

end Conmech.Spec
