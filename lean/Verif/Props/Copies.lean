import Verif.Spec.StateHeap
import Verif.Lemmas.Running
/-!
C43: copies of a state.
-/
namespace Conmech
open Spec

variable {K : Type} [Field K]

section views
variable (g : Grid K)

theorem read_write_same (h : Heap K) (v : View) (f : ℕ → ℕ → K) (i j : ℕ) (hi : i < g.nodesCount)
    (hj : j < g.dimension) : v.read g (v.write g h f) i j = f i j := by
  unfold View.read View.write
  cases v.columns with
  | true =>
    have h1 : j * g.nodesCount + i < g.nodesCount * g.dimension := by
      calc j * g.nodesCount + i < j * g.nodesCount + g.nodesCount := by omega
        _ = (j + 1) * g.nodesCount := by ring
        _ ≤ g.dimension * g.nodesCount := Nat.mul_le_mul_right _ hj
        _ = _ := Nat.mul_comm _ _
    have h2 : (j * g.nodesCount + i) % g.nodesCount = i := by
      rw [Nat.add_comm, Nat.add_mul_mod_self_right, Nat.mod_eq_of_lt hi]
    have h3 : (j * g.nodesCount + i) / g.nodesCount = j := by
      rw [Nat.add_comm, Nat.add_mul_div_right _ _ (by omega), Nat.div_eq_of_lt hi, Nat.zero_add]
    simp [h1, h2, h3]
  | false =>
    have h1 : i * g.dimension + j < g.nodesCount * g.dimension := by
      calc i * g.dimension + j < i * g.dimension + g.dimension := by omega
        _ = (i + 1) * g.dimension := by ring
        _ ≤ g.nodesCount * g.dimension := Nat.mul_le_mul_right _ hi
    have h2 : (i * g.dimension + j) % g.dimension = j := by
      rw [Nat.add_comm, Nat.add_mul_mod_self_right, Nat.mod_eq_of_lt hj]
    have h3 : (i * g.dimension + j) / g.dimension = i := by
      rw [Nat.add_comm, Nat.add_mul_div_right _ _ (by omega), Nat.div_eq_of_lt hj, Nat.zero_add]
    simp [h1, h2, h3]

theorem get_write_other (h : Heap K) (v : View) (f : ℕ → ℕ → K) (b : ℕ) (hb : b ≠ v.buffer) :
    (v.write g h f).get b = h.get b := by
  funext k
  simp [View.write, hb]

theorem read_congr (h h' : Heap K) (v : View) (hb : h.get v.buffer = h'.get v.buffer) :
    v.read g h = v.read g h' := by
  funext i j
  simp [View.read, hb]

omit [Field K] in
theorem scalarShows_congr (h h' : Heap K) (sc : RefScalar) (f : ScalarField K)
    (hb : ∀ b ∈ scalarBuffers sc, h.get b = h'.get b) (hs : ScalarShows g h sc f) :
    ScalarShows g h' sc f := by
  cases sc <;> cases f <;> simp only [ScalarShows, scalarBuffers, List.mem_singleton, forall_eq] at * <;>
    (intro k hk; rw [← hb]; exact hs k hk)

/-- The values of a state depend only on the arrays it refers to. -/
theorem shows_congr (h h' : Heap K) (s : RefState K) (v : Snapshot K)
    (hb : ∀ b ∈ buffers s, h.get b = h'.get b) (hs : Shows g h s v) : Shows g h' s v := by
  have h1 := read_congr g h h' s.absement (hb _ (by simp [buffers]))
  have h2 := read_congr g h h' s.displacement (hb _ (by simp [buffers]))
  have h3 := read_congr g h h' s.displacedNodes (hb _ (by simp [buffers]))
  have h4 := read_congr g h h' s.velocity (hb _ (by simp [buffers]))
  exact ⟨h1 ▸ hs.absement, h2 ▸ hs.displacement, h3 ▸ hs.displacedNodes, h4 ▸ hs.velocity,
    scalarShows_congr g h h' _ _ (fun b hb' => hb b (by simp [buffers, hb'])) hs.scalar, hs.time⟩

end views

/-- The arrays of all states exist and are different. -/
structure Separate (w : World K) : Prop where
  exist : ∀ i < w.count, ∀ b ∈ buffers (w.state i), b < w.heap.next
  own : ∀ i < w.count, (buffers (w.state i)).Nodup
  others : ∀ i < w.count, ∀ j < w.count, i ≠ j → ∀ b ∈ buffers (w.state i), b ∉ buffers (w.state j)

/-- All states have the given values. -/
def Agree (g : Grid K) (w : World K) (v : ℕ → Snapshot K) : Prop :=
  ∀ i < w.count, Shows g w.heap (w.state i) (v i)

section operations
variable (g : Grid K)

/-- What a method does: the values afterwards, the arrays it leaves alone, the arrays the state refers
to afterwards. -/
structure Performs (h : Heap K) (s : RefState K) (v : Snapshot K) (op : RefOperation K)
    (r : RefState K × Heap K) : Prop where
  values : Shows g r.2 r.1 (valueOf g (h.get op.vector) v op)
  frame : ∀ b, b ∉ buffers s → r.2.get b = h.get b
  next : r.2.next = h.next
  arrays : ∀ b ∈ buffers r.1, b = op.vector ∨ b ∈ buffers s
  distinct : (buffers r.1).Nodup

theorem vector_read (h h' : Heap K) (x : ℕ) (hh : h'.get x = h.get x) (i j : ℕ) :
    View.read g h' ⟨x, true⟩ i j = State.unflatten g (h.get x) i j := by
  simp [View.read, State.unflatten, hh]

theorem setDisplacement_spec (h : Heap K) (s : RefState K) (hn : (buffers s).Nodup) (v : Snapshot K)
    (hs : Shows g h s v) (x : ℕ) (hx : x ∉ buffers s) (t : K) (u : Bool) :
    Performs g h s v (.setDisplacement x t u) (s.setDisplacement g h x t u) := by
  have hn' := hn
  have hx' := hx
  simp only [buffers, List.nodup_cons, List.mem_cons, not_or] at hn' hx'
  obtain ⟨⟨ad, an, av, asc⟩, ⟨dn, dv, dsc⟩, ⟨nv, nsc⟩, vsc, hnd⟩ := hn'
  obtain ⟨xa, xd, xn, xv, xsc⟩ := hx'
  -- the heap after the positions have been written
  obtain ⟨h1, hh1⟩ : ∃ h1, h1 = s.displacedNodes.write g h fun i j =>
      g.nodes i j + View.read g h ⟨x, true⟩ i j := ⟨_, rfl⟩
  have f1 : ∀ b, b ≠ s.displacedNodes.buffer → h1.get b = h.get b := fun b hb => by
    rw [hh1]; exact get_write_other g _ _ _ _ hb
  have r1 : ∀ i < g.nodesCount, ∀ j < g.dimension, s.displacedNodes.read g h1 i j =
      g.nodes i j + State.unflatten g (h.get x) i j := fun i hi j hj => by
    rw [hh1, read_write_same g _ _ _ i j hi hj, vector_read g h h x rfl]
  have n1 : h1.next = h.next := by rw [hh1]; rfl
  -- and after the absement has been written
  obtain ⟨h2, hh2⟩ : ∃ h2, h2 = s.absement.write g h1 fun i j =>
      s.absement.read g h1 i j + (t - s.time) * View.read g h1 ⟨x, true⟩ i j := ⟨_, rfl⟩
  have f2 : ∀ b, b ≠ s.absement.buffer → h2.get b = h1.get b := fun b hb => by
    rw [hh2]; exact get_write_other g _ _ _ _ hb
  have r2 : ∀ i < g.nodesCount, ∀ j < g.dimension, s.absement.read g h2 i j =
      v.absement i j + (t - v.time) * State.unflatten g (h.get x) i j := fun i hi j hj => by
    rw [hh2, read_write_same g _ _ _ i j hi hj, vector_read g h h1 x (f1 x xn),
      read_congr g h1 h _ (f1 _ an), hs.absement i hi j hj, hs.time]
  have n2 : h2.next = h1.next := by rw [hh2]; rfl
  have hsc : ∀ b ∈ scalarBuffers s.scalar, b ≠ s.absement.buffer ∧ b ≠ s.displacedNodes.buffer :=
    fun b hb => ⟨fun he => asc (he ▸ hb), fun he => nsc (he ▸ hb)⟩
  have hres : s.setDisplacement g h x t u =
      ({ s with displacement := ⟨x, true⟩, time := t }, if u then h2 else h1) := by
    rw [hh2, hh1]; rfl
  rw [hres]
  have hd : (buffers ({ s with displacement := ⟨x, true⟩, time := t } : RefState K)).Nodup := by
    simp only [buffers, List.nodup_cons, List.mem_cons, not_or]
    exact ⟨⟨Ne.symm xa, an, av, asc⟩, ⟨xn, xv, xsc⟩, ⟨nv, nsc⟩, vsc, hnd⟩
  have ha : ∀ b ∈ buffers ({ s with displacement := ⟨x, true⟩, time := t } : RefState K),
      b = x ∨ b ∈ buffers s := by
    intro b hb
    simp only [buffers, List.mem_cons] at hb ⊢
    tauto
  cases u with
  | false =>
    refine ⟨⟨fun i hi j hj => ?_, fun i hi j hj => ?_, fun i hi j hj => ?_, fun i hi j hj => ?_, ?_, rfl⟩,
      fun b hb => ?_, n1, ha, hd⟩
    · exact (congrFun (congrFun (read_congr g h1 h _ (f1 _ an)) i) j).trans (hs.absement i hi j hj)
    · exact vector_read g h h1 x (f1 x xn) i j
    · exact r1 i hi j hj
    · exact (congrFun (congrFun (read_congr g h1 h _ (f1 _ (Ne.symm nv))) i) j).trans
        (hs.velocity i hi j hj)
    · exact scalarShows_congr g h h1 _ _ (fun b hb => (f1 b (hsc b hb).2).symm) hs.scalar
    · simp only [buffers, List.mem_cons, not_or] at hb
      exact f1 b hb.2.2.1
  | true =>
    refine ⟨⟨fun i hi j hj => ?_, fun i hi j hj => ?_, fun i hi j hj => ?_, fun i hi j hj => ?_, ?_, rfl⟩,
      fun b hb => ?_, n2.trans n1, ha, hd⟩
    · exact r2 i hi j hj
    · exact vector_read g h h2 x ((f2 x xa).trans (f1 x xn)) i j
    · exact (congrFun (congrFun (read_congr g h2 h1 _ (f2 _ (Ne.symm an))) i) j).trans (r1 i hi j hj)
    · exact (congrFun (congrFun (read_congr g h2 h _
        ((f2 _ (Ne.symm av)).trans (f1 _ (Ne.symm nv)))) i) j).trans (hs.velocity i hi j hj)
    · exact scalarShows_congr g h h2 _ _
        (fun b hb => ((f2 b (hsc b hb).1).trans (f1 b (hsc b hb).2)).symm) hs.scalar
    · simp only [buffers, List.mem_cons, not_or] at hb
      exact (f2 b hb.1).trans (f1 b hb.2.2.1)

theorem setVelocity_spec (h : Heap K) (s : RefState K) (hn : (buffers s).Nodup) (v : Snapshot K)
    (hs : Shows g h s v) (x : ℕ) (hx : x ∉ buffers s) (t : K) (u : Bool) :
    Performs g h s v (.setVelocity x t u) (s.setVelocity g h x t u) := by
  have hn' := hn
  have hx' := hx
  simp only [buffers, List.nodup_cons, List.mem_cons, not_or] at hn' hx'
  obtain ⟨⟨ad, an, av, asc⟩, ⟨dn, dv, dsc⟩, ⟨nv, nsc⟩, vsc, hnd⟩ := hn'
  obtain ⟨xa, xd, xn, xv, xsc⟩ := hx'
  obtain ⟨h1, hh1⟩ : ∃ h1, h1 = s.displacement.write g h fun i j =>
      s.displacement.read g h i j + (t - s.time) * View.read g h ⟨x, true⟩ i j := ⟨_, rfl⟩
  have f1 : ∀ b, b ≠ s.displacement.buffer → h1.get b = h.get b := fun b hb => by
    rw [hh1]; exact get_write_other g _ _ _ _ hb
  have r1 : ∀ i < g.nodesCount, ∀ j < g.dimension, s.displacement.read g h1 i j =
      v.displacement i j + (t - v.time) * State.unflatten g (h.get x) i j := fun i hi j hj => by
    rw [hh1, read_write_same g _ _ _ i j hi hj, vector_read g h h x rfl, hs.displacement i hi j hj,
      hs.time]
  have n1 : h1.next = h.next := by rw [hh1]; rfl
  obtain ⟨h2, hh2⟩ : ∃ h2, h2 = s.displacedNodes.write g h1 fun i j =>
      g.nodes i j + s.displacement.read g h1 i j := ⟨_, rfl⟩
  have f2 : ∀ b, b ≠ s.displacedNodes.buffer → h2.get b = h1.get b := fun b hb => by
    rw [hh2]; exact get_write_other g _ _ _ _ hb
  have r2 : ∀ i < g.nodesCount, ∀ j < g.dimension, s.displacedNodes.read g h2 i j =
      g.nodes i j + (v.displacement i j + (t - v.time) * State.unflatten g (h.get x) i j) :=
    fun i hi j hj => by
      rw [hh2, read_write_same g _ _ _ i j hi hj, r1 i hi j hj]
  have n2 : h2.next = h1.next := by rw [hh2]; rfl
  have hsc : ∀ b ∈ scalarBuffers s.scalar, b ≠ s.displacement.buffer ∧ b ≠ s.displacedNodes.buffer :=
    fun b hb => ⟨fun he => dsc (he ▸ hb), fun he => nsc (he ▸ hb)⟩
  have hres : s.setVelocity g h x t u =
      ({ s with velocity := ⟨x, true⟩, time := t }, if u then h2 else h) := by
    rw [hh2, hh1]; rfl
  rw [hres]
  have hd : (buffers ({ s with velocity := ⟨x, true⟩, time := t } : RefState K)).Nodup := by
    simp only [buffers, List.nodup_cons, List.mem_cons, not_or]
    exact ⟨⟨ad, an, Ne.symm xa, asc⟩, ⟨dn, Ne.symm xd, dsc⟩, ⟨Ne.symm xn, nsc⟩, xsc, hnd⟩
  have ha : ∀ b ∈ buffers ({ s with velocity := ⟨x, true⟩, time := t } : RefState K),
      b = x ∨ b ∈ buffers s := by
    intro b hb
    simp only [buffers, List.mem_cons] at hb ⊢
    tauto
  cases u with
  | false =>
    exact ⟨⟨hs.absement, hs.displacement, hs.displacedNodes,
      fun i _ j _ => vector_read g h h x rfl i j, hs.scalar, rfl⟩, fun _ _ => rfl, rfl, ha, hd⟩
  | true =>
    refine ⟨⟨fun i hi j hj => ?_, fun i hi j hj => ?_, fun i hi j hj => ?_, fun i hi j hj => ?_, ?_, rfl⟩,
      fun b hb => ?_, n2.trans n1, ha, hd⟩
    · exact (congrFun (congrFun (read_congr g h2 h _ ((f2 _ an).trans (f1 _ ad))) i) j).trans
        (hs.absement i hi j hj)
    · exact (congrFun (congrFun (read_congr g h2 h1 _ (f2 _ dn)) i) j).trans (r1 i hi j hj)
    · exact r2 i hi j hj
    · exact vector_read g h h2 x ((f2 x xn).trans (f1 x xd)) i j
    · exact scalarShows_congr g h h2 _ _
        (fun b hb => ((f2 b (hsc b hb).2).trans (f1 b (hsc b hb).1)).symm) hs.scalar
    · simp only [buffers, List.mem_cons, not_or] at hb
      exact (f2 b hb.2.2.1).trans (f1 b hb.2.1)

theorem setScalar_spec (h : Heap K) (s : RefState K) (hn : (buffers s).Nodup) (v : Snapshot K)
    (hs : Shows g h s v) (x : ℕ) (hx : x ∉ buffers s) :
    Performs g h s v (.setScalar x) (s.setScalar x, h) := by
  obtain ⟨a, d, n, ve, sc, ti⟩ := s
  obtain ⟨va, vd, vn, vv, vs, vt⟩ := v
  have hsc := hs.scalar
  simp only [buffers, List.nodup_cons, List.mem_cons, not_or] at hn hx
  obtain ⟨h1, h2, h3, h4, _, h6⟩ := hs
  cases sc <;> cases vs <;> simp only [ScalarShows] at hsc
  all_goals
    simp only [scalarBuffers, List.mem_singleton, List.not_mem_nil] at hn hx
    refine ⟨⟨h1, h2, h3, h4, ?_, h6⟩, fun _ _ => rfl, rfl, fun b hb => ?_, ?_⟩
    · simp only [RefState.setScalar, valueOf, State.setScalar, ScalarShows, RefOperation.vector,
        implies_true]
    · simp only [RefState.setScalar, buffers, scalarBuffers, List.mem_cons, RefOperation.vector] at hb ⊢
      tauto
    · simp only [RefState.setScalar, buffers, scalarBuffers, List.nodup_cons, List.mem_cons,
        List.not_mem_nil, not_or, not_false_eq_true, or_false, List.nodup_nil] at hn hx ⊢
      tauto

/-- A new state: its arrays are new and different, the other arrays are left alone. -/
theorem new_spec (kind : StateKind) (h : Heap K) :
    Shows g (RefState.new g kind h).2 (RefState.new g kind h).1 (State.new g kind).toSnapshot ∧
    (∀ b < h.next, (RefState.new g kind h).2.get b = h.get b) ∧
    h.next ≤ (RefState.new g kind h).2.next ∧
    (∀ b ∈ buffers (RefState.new g kind h).1, h.next ≤ b ∧ b < (RefState.new g kind h).2.next) ∧
    (buffers (RefState.new g kind h).1).Nodup := by
  have key : ∀ b < h.next, b ≠ h.next ∧ b ≠ h.next + 1 ∧ b ≠ h.next + 1 + 1 ∧
      b ≠ h.next + 1 + 1 + 1 ∧ b ≠ h.next + 1 + 1 + 1 + 1 := fun b hb => by omega
  have m1 : ∀ n : ℕ, n ≠ n + 1 := fun n => by omega
  have m2 : ∀ n : ℕ, n ≠ n + 1 + 1 := fun n => by omega
  have m3 : ∀ n : ℕ, n ≠ n + 1 + 1 + 1 := fun n => by omega
  have m4 : ∀ n : ℕ, n ≠ n + 1 + 1 + 1 + 1 := fun n => by omega
  have hnodes : ∀ i < g.nodesCount, ∀ j < g.dimension,
      g.nodes ((i * g.dimension + j) / g.dimension) ((i * g.dimension + j) % g.dimension) =
        g.nodes i j := by
    intro i _ j hj
    rw [Nat.add_comm (i * g.dimension) j, Nat.add_mul_mod_self_right,
      Nat.add_mul_div_right _ _ (by omega), Nat.mod_eq_of_lt hj, Nat.div_eq_of_lt hj, Nat.zero_add]
  cases kind
  all_goals
    refine ⟨⟨fun i hi j hj => ?_, fun i hi j hj => ?_, fun i hi j hj => ?_, fun i hi j hj => ?_, ?_, rfl⟩,
      fun b hb => ?_, ?_, fun b hb => ?_, ?_⟩
    · simp [RefState.new, Heap.alloc, View.read, State.new, m1, m2, m3, m4]
    · simp [RefState.new, Heap.alloc, View.read, State.new, m1, m2, m3, m4]
    · simpa [RefState.new, Heap.alloc, View.read, State.new, m1, m2, m3, m4] using hnodes i hi j hj
    · simp [RefState.new, Heap.alloc, View.read, State.new, m1, m2, m3, m4]
    · simp [RefState.new, Heap.alloc, State.new, StateKind.initial, ScalarShows]
    · obtain ⟨k0, k1, k2, k3, k4⟩ := key b hb
      simp [RefState.new, Heap.alloc, k0, k1, k2, k3, k4]
    · simp only [RefState.new, Heap.alloc]; omega
    · simp only [RefState.new, Heap.alloc, buffers, scalarBuffers, List.mem_cons, List.not_mem_nil,
        or_false] at hb ⊢
      omega
    · simp only [RefState.new, Heap.alloc, buffers, scalarBuffers, List.nodup_cons, List.mem_cons,
        List.not_mem_nil, List.nodup_nil, or_false, and_true, not_false_eq_true, not_or]
      omega

theorem copy_eq (h : Heap K) (s : RefState K) (kind : StateKind)
    (hk : kind = match s.scalar with
      | .absent => .plain
      | .temperature _ => .temperature
      | .potential _ => .piezoelectric) :
    s.copy g h =
      let c := (RefState.new g kind h).1
      let h0 := (RefState.new g kind h).2
      let h1 := c.absement.write g h0 (s.absement.read g h0)
      let h2 := c.displacement.write g h1 (s.displacement.read g h1)
      let h3 := c.displacedNodes.write g h2 (s.displacedNodes.read g h2)
      let h4 := c.velocity.write g h3 (s.velocity.read g h3)
      ({ c with time := s.time }, match s.scalar, c.scalar with
        | .temperature b, .temperature b' => RefState.writeFlat g h4 b' (h4.get b)
        | .potential b, .potential b' => RefState.writeFlat g h4 b' (h4.get b)
        | _, _ => h4) := by
  subst hk
  unfold RefState.copy
  cases s.scalar <;> rfl

/-- A copy has the values of the original, its arrays are new. -/
theorem copy_spec (h : Heap K) (s : RefState K) (he : ∀ b ∈ buffers s, b < h.next) (v : Snapshot K)
    (hs : Shows g h s v) :
    Shows g (s.copy g h).2 (s.copy g h).1 v ∧
    (∀ b < h.next, (s.copy g h).2.get b = h.get b) ∧
    h.next ≤ (s.copy g h).2.next ∧
    (∀ b ∈ buffers (s.copy g h).1, h.next ≤ b ∧ b < (s.copy g h).2.next) ∧
    (buffers (s.copy g h).1).Nodup := by
  obtain ⟨kind, hk⟩ : ∃ kind, kind = match s.scalar with
      | .absent => StateKind.plain
      | .temperature _ => .temperature
      | .potential _ => .piezoelectric := ⟨_, rfl⟩
  rw [copy_eq g h s kind hk]
  obtain ⟨hc, hframe, hnext, hbuf, hnd⟩ := new_spec g kind h
  have hsc0 := hc.scalar
  obtain ⟨c, hcc⟩ : ∃ c, c = (RefState.new g kind h).1 := ⟨_, rfl⟩
  obtain ⟨h0, hh0⟩ : ∃ c, c = (RefState.new g kind h).2 := ⟨_, rfl⟩
  rw [← hcc] at hbuf hnd hsc0
  rw [← hh0] at hframe hnext hbuf
  simp only [← hcc, ← hh0]
  have hbuf' := hbuf
  have hnd' := hnd
  simp only [buffers, List.nodup_cons, List.mem_cons, not_or, forall_eq_or_imp] at hbuf' hnd' he
  obtain ⟨ba, bd, bn, bv, bsc⟩ := hbuf'
  obtain ⟨⟨ad, an, av, asc⟩, ⟨dn, dv, dsc⟩, ⟨nv, nsc⟩, vsc, _⟩ := hnd'
  obtain ⟨ea, ed, en, ev, esc⟩ := he
  obtain ⟨h1, hh1⟩ : ∃ x, x = c.absement.write g h0 (s.absement.read g h0) := ⟨_, rfl⟩
  have f1 : ∀ b, b ≠ c.absement.buffer → h1.get b = h0.get b := fun b hb => by
    rw [hh1]; exact get_write_other g _ _ _ _ hb
  obtain ⟨h2, hh2⟩ : ∃ x, x = c.displacement.write g h1 (s.displacement.read g h1) := ⟨_, rfl⟩
  have f2 : ∀ b, b ≠ c.displacement.buffer → h2.get b = h1.get b := fun b hb => by
    rw [hh2]; exact get_write_other g _ _ _ _ hb
  obtain ⟨h3, hh3⟩ : ∃ x, x = c.displacedNodes.write g h2 (s.displacedNodes.read g h2) := ⟨_, rfl⟩
  have f3 : ∀ b, b ≠ c.displacedNodes.buffer → h3.get b = h2.get b := fun b hb => by
    rw [hh3]; exact get_write_other g _ _ _ _ hb
  obtain ⟨h4, hh4⟩ : ∃ x, x = c.velocity.write g h3 (s.velocity.read g h3) := ⟨_, rfl⟩
  have f4 : ∀ b, b ≠ c.velocity.buffer → h4.get b = h3.get b := fun b hb => by
    rw [hh4]; exact get_write_other g _ _ _ _ hb
  rw [← hh1, ← hh2, ← hh3, ← hh4]
  have o1 : ∀ b < h.next, h1.get b = h.get b := fun b hb =>
    (f1 b (by omega)).trans (hframe b hb)
  have o2 : ∀ b < h.next, h2.get b = h.get b := fun b hb => (f2 b (by omega)).trans (o1 b hb)
  have o3 : ∀ b < h.next, h3.get b = h.get b := fun b hb => (f3 b (by omega)).trans (o2 b hb)
  have o4 : ∀ b < h.next, h4.get b = h.get b := fun b hb => (f4 b (by omega)).trans (o3 b hb)
  have ra : ∀ i < g.nodesCount, ∀ j < g.dimension, c.absement.read g h4 i j = v.absement i j := by
    intro i hi j hj
    rw [read_congr g h4 h1 _ ((f4 _ av).trans ((f3 _ an).trans (f2 _ ad))), hh1,
      read_write_same g _ _ _ i j hi hj, read_congr g h0 h _ (hframe _ ea), hs.absement i hi j hj]
  have rd : ∀ i < g.nodesCount, ∀ j < g.dimension,
      c.displacement.read g h4 i j = v.displacement i j := by
    intro i hi j hj
    rw [read_congr g h4 h2 _ ((f4 _ dv).trans (f3 _ dn)), hh2,
      read_write_same g _ _ _ i j hi hj, read_congr g h1 h _ (o1 _ ed), hs.displacement i hi j hj]
  have rn : ∀ i < g.nodesCount, ∀ j < g.dimension,
      c.displacedNodes.read g h4 i j = v.displacedNodes i j := by
    intro i hi j hj
    rw [read_congr g h4 h3 _ (f4 _ nv), hh3,
      read_write_same g _ _ _ i j hi hj, read_congr g h2 h _ (o2 _ en), hs.displacedNodes i hi j hj]
  have rv : ∀ i < g.nodesCount, ∀ j < g.dimension, c.velocity.read g h4 i j = v.velocity i j := by
    intro i hi j hj
    rw [hh4, read_write_same g _ _ _ i j hi hj, read_congr g h3 h _ (o3 _ ev), hs.velocity i hi j hj]
  have n4 : h4.next = h0.next := by rw [hh4, hh3, hh2, hh1]; rfl
  have hflat : ∀ (b' : ℕ) (f : ℕ → K) (b : ℕ), b ≠ b' →
      (RefState.writeFlat g h4 b' f).get b = h4.get b := by
    intro b' f b hb
    funext k
    simp [RefState.writeFlat, hb]
  have hvs := hs.scalar
  have finish : ∀ (b b' : ℕ), c.scalar = .temperature b' ∨ c.scalar = .potential b' →
      b ∈ scalarBuffers s.scalar →
      (∀ i < g.nodesCount, ∀ j < g.dimension,
        c.absement.read g (RefState.writeFlat g h4 b' (h4.get b)) i j = v.absement i j) ∧
      (∀ i < g.nodesCount, ∀ j < g.dimension,
        c.displacement.read g (RefState.writeFlat g h4 b' (h4.get b)) i j = v.displacement i j) ∧
      (∀ i < g.nodesCount, ∀ j < g.dimension,
        c.displacedNodes.read g (RefState.writeFlat g h4 b' (h4.get b)) i j = v.displacedNodes i j) ∧
      (∀ i < g.nodesCount, ∀ j < g.dimension,
        c.velocity.read g (RefState.writeFlat g h4 b' (h4.get b)) i j = v.velocity i j) ∧
      (∀ k < g.nodesCount, (RefState.writeFlat g h4 b' (h4.get b)).get b' k = h.get b k) ∧
      (∀ x < h.next, (RefState.writeFlat g h4 b' (h4.get b)).get x = h.get x) := by
    intro b b' hb' hbs
    have hmem : b' ∈ scalarBuffers c.scalar := by
      rcases hb' with hb' | hb' <;> simp [hb', scalarBuffers]
    have q1 : c.absement.buffer ≠ b' := fun e => asc (e ▸ hmem)
    have q2 : c.displacement.buffer ≠ b' := fun e => dsc (e ▸ hmem)
    have q3 : c.displacedNodes.buffer ≠ b' := fun e => nsc (e ▸ hmem)
    have q4 : c.velocity.buffer ≠ b' := fun e => vsc (e ▸ hmem)
    refine ⟨fun i hi j hj => ?_, fun i hi j hj => ?_, fun i hi j hj => ?_, fun i hi j hj => ?_,
      fun k hk => ?_, fun x hx => ?_⟩
    · rw [read_congr g _ h4 _ (hflat _ _ _ q1)]; exact ra i hi j hj
    · rw [read_congr g _ h4 _ (hflat _ _ _ q2)]; exact rd i hi j hj
    · rw [read_congr g _ h4 _ (hflat _ _ _ q3)]; exact rn i hi j hj
    · rw [read_congr g _ h4 _ (hflat _ _ _ q4)]; exact rv i hi j hj
    · simp [RefState.writeFlat, hk, o4 b (esc b hbs)]
    · have := bsc b' hmem
      rw [hflat _ _ _ (by omega), o4 x hx]
  cases hss : s.scalar with
  | absent =>
    rw [hss] at hk hvs
    subst hk
    have hcs : c.scalar = .absent := by rw [hcc]; rfl
    refine ⟨⟨ra, rd, rn, rv, ?_, hs.time⟩, o4, ?_, ?_, hnd⟩
    · simp only [hcs]
      cases hv : v.scalar <;> rw [hv] at hvs <;> exact hvs
    · show h.next ≤ h4.next
      omega
    · rw [n4]; exact hbuf
  | temperature b =>
    rw [hss] at hk hvs
    subst hk
    have hcs : c.scalar = .temperature (h.next + 4) := by rw [hcc]; rfl
    obtain ⟨g1, g2, g3, g4, g5, g6⟩ := finish b (h.next + 4) (.inl hcs) (by simp [hss, scalarBuffers])
    simp only [hcs]
    refine ⟨⟨g1, g2, g3, g4, ?_, hs.time⟩, g6, ?_, ?_, ?_⟩
    · cases hv : v.scalar <;> rw [hv] at hvs <;> first | exact absurd hvs id | skip
      exact fun k hk => (g5 k hk).trans (hvs k hk)
    · show h.next ≤ h4.next
      omega
    · show ∀ b ∈ buffers _, h.next ≤ b ∧ b < h4.next
      rw [n4]
      intro x hx
      exact hbuf x (by simpa [buffers, hcs] using hx)
    · simpa [buffers, hcs] using hnd
  | potential b =>
    rw [hss] at hk hvs
    subst hk
    have hcs : c.scalar = .potential (h.next + 4) := by rw [hcc]; rfl
    obtain ⟨g1, g2, g3, g4, g5, g6⟩ := finish b (h.next + 4) (.inr hcs) (by simp [hss, scalarBuffers])
    simp only [hcs]
    refine ⟨⟨g1, g2, g3, g4, ?_, hs.time⟩, g6, ?_, ?_, ?_⟩
    · cases hv : v.scalar <;> rw [hv] at hvs <;> first | exact absurd hvs id | skip
      exact fun k hk => (g5 k hk).trans (hvs k hk)
    · show h.next ≤ h4.next
      omega
    · show ∀ b ∈ buffers _, h.next ≤ b ∧ b < h4.next
      rw [n4]
      intro x hx
      exact hbuf x (by simpa [buffers, hcs] using hx)
    · simpa [buffers, hcs] using hnd

/-- One action of a fair program. -/
theorem act_spec (w : World K) (hsep : Separate w) (v : ℕ → Snapshot K) (hag : Agree g w v)
    (a : Action K) (hf : Fair w a) :
    Separate (w.act g a) ∧ Agree g (w.act g a) (valueAct g w v a) := by
  cases a with
  | call i op =>
    obtain ⟨hi, hlt, huse⟩ := hf
    have hx : ∀ j < w.count, op.vector ∉ buffers (w.state j) := fun j hj hb => huse ⟨j, hj, hb⟩
    have hp : Performs g w.heap (w.state i) (v i) op (op.perform g w.heap (w.state i)) := by
      cases op with
      | setDisplacement x t u => exact setDisplacement_spec g _ _ (hsep.own i hi) _ (hag i hi) x (hx i hi) t u
      | setVelocity x t u => exact setVelocity_spec g _ _ (hsep.own i hi) _ (hag i hi) x (hx i hi) t u
      | setScalar x => exact setScalar_spec g _ _ (hsep.own i hi) _ (hag i hi) x (hx i hi)
    generalize hr : op.perform g w.heap (w.state i) = r at hp
    have hw : w.act g (.call i op) =
        { w with heap := r.2, state := fun j => if j = i then r.1 else w.state j } := by
      rw [← hr]; rfl
    rw [hw]
    refine ⟨⟨fun j hj b hb => ?_, fun j hj => ?_, fun j hj k hk hjk b hb => ?_⟩, fun j hj => ?_⟩
    · show b < r.2.next
      rw [hp.next]
      simp only at hb
      split_ifs at hb with hji
      · rcases hp.arrays b hb with rfl | hb
        · exact hlt
        · exact hsep.exist i hi b hb
      · exact hsep.exist j hj b hb
    · simp only
      split_ifs
      · exact hp.distinct
      · exact hsep.own j hj
    · simp only at hb ⊢
      split_ifs at hb with hji <;> split_ifs with hki
      · exact absurd (hji.trans hki.symm) hjk
      · rcases hp.arrays b hb with rfl | hb
        · exact hx k hk
        · exact hsep.others i hi k hk (fun e => hki e.symm) b hb
      · intro hb'
        rcases hp.arrays b hb' with rfl | hb'
        · exact hx j hj hb
        · exact hsep.others i hi j hj (fun e => hji e.symm) b hb' hb
      · exact hsep.others j hj k hk hjk b hb
    · simp only [valueAct]
      by_cases hji : j = i
      · simp only [hji, if_true]; exact hp.values
      · simp only [hji, if_false]
        refine shows_congr g w.heap r.2 _ _ (fun b hb => ?_) (hag j hj)
        exact (hp.frame b (hsep.others j hj i hi hji b hb)).symm
  | copy i =>
    obtain ⟨c1, c2, c3, c4, c5⟩ := copy_spec g w.heap (w.state i) (hsep.exist i hf) (v i) (hag i hf)
    refine ⟨⟨fun j hj b hb => ?_, fun j hj => ?_, fun j hj k hk hjk b hb => ?_⟩, fun j hj => ?_⟩
    · simp only [World.act] at hj hb ⊢
      split_ifs at hb with hjc
      · exact (c4 b hb).2
      · have := hsep.exist j (by omega) b hb; omega
    · simp only [World.act] at hj ⊢
      split_ifs with hjc
      · exact c5
      · exact hsep.own j (by omega)
    · simp only [World.act] at hj hk hb ⊢
      split_ifs at hb with hjc <;> split_ifs with hkc
      · exact absurd (hjc.trans hkc.symm) hjk
      · intro hb'
        have := hsep.exist k (by omega) b hb'
        have := (c4 b hb).1
        omega
      · intro hb'
        have := hsep.exist j (by omega) b hb
        have := (c4 b hb').1
        omega
      · exact hsep.others j (by omega) k (by omega) hjk b hb
    · simp only [World.act, valueAct] at hj ⊢
      by_cases hjc : j = w.count
      · simp only [hjc, if_true]; exact c1
      · simp only [hjc, if_false]
        refine shows_congr g w.heap _ _ _ (fun b hb => ?_) (hag j (by omega))
        exact (c2 b (hsep.exist j (by omega) b hb)).symm
  | vector content =>
    refine ⟨⟨fun j hj b hb => ?_, hsep.own, hsep.others⟩, fun j hj => ?_⟩
    · exact lt_trans (hsep.exist j hj b hb) (Nat.lt_succ_self _)
    · refine shows_congr g w.heap _ _ _ (fun b hb => ?_) (hag j hj)
      have := hsep.exist j hj b hb
      simp [World.act, Heap.alloc, Nat.ne_of_lt this]
  | fill b0 content =>
    refine ⟨⟨hsep.exist, hsep.own, hsep.others⟩, fun j hj => ?_⟩
    refine shows_congr g w.heap _ _ _ (fun b hb => ?_) (hag j hj)
    have : b ≠ b0 := fun e => hf.2 ⟨j, hj, e ▸ hb⟩
    simp [World.act, this]

theorem world_new (kind : StateKind) :
    Separate (World.new g kind) ∧ Agree g (World.new g kind) fun _ => (State.new g kind).toSnapshot := by
  obtain ⟨h1, _, _, h4, h5⟩ := new_spec g kind { get := fun _ _ => 0, next := 0 }
  refine ⟨⟨fun i _ b hb => (h4 b hb).2, fun _ _ => h5, fun i hi j hj hij => ?_⟩, fun _ _ => h1⟩
  change i < 1 at hi
  change j < 1 at hj
  omega

end operations

/-! ### C43 -/

/-- Any fair program with any number of states and copies, started with one new state: the values of
every state are those of independent values, where a method changes only the state it is called on
and a copy has the values of the original. -/
theorem C43_values_partial (g : Grid K) (kind : StateKind) (actions : List (Action K))
    (hf : FairAll g actions (World.new g kind)) :
    Agree g (execute g actions (World.new g kind) fun _ => (State.new g kind).toSnapshot).1
      (execute g actions (World.new g kind) fun _ => (State.new g kind).toSnapshot).2 := by
  have key : ∀ (actions : List (Action K)) (w : World K) (v : ℕ → Snapshot K), Separate w →
      Agree g w v → FairAll g actions w →
      Agree g (execute g actions w v).1 (execute g actions w v).2 := by
    intro actions
    induction actions with
    | nil => exact fun w v _ h _ => h
    | cons a as ih =>
      intro w v hs ha hf
      obtain ⟨h1, h2⟩ := act_spec g w hs v ha a hf.1
      exact ih _ _ h1 h2 hf.2
  exact key actions _ _ (world_new g kind).1 (world_new g kind).2 hf

theorem execute_fst (g : Grid K) (actions : List (Action K)) (w : World K) (v : ℕ → Snapshot K) :
    (execute g actions w v).1 = actions.foldl (World.act g) w := by
  induction actions generalizing w v with
  | nil => rfl
  | cons a as ih => exact ih _ _

theorem fairAll_append (g : Grid K) (as bs : List (Action K)) (w : World K) :
    FairAll g (as ++ bs) w ↔ FairAll g as w ∧ FairAll g bs (as.foldl (World.act g) w) := by
  induction as generalizing w with
  | nil => simp [FairAll]
  | cons a as ih => simp [FairAll, ih, and_assoc]

theorem fair_run (g : Grid K) (actions : List (Action K)) (w : World K) (v : ℕ → Snapshot K)
    (hs : Separate w) (ha : Agree g w v) (hf : FairAll g actions w) :
    Separate (actions.foldl (World.act g) w) ∧ ∃ v, Agree g (actions.foldl (World.act g) w) v := by
  induction actions generalizing w v with
  | nil => exact ⟨hs, v, ha⟩
  | cons a as ih =>
    obtain ⟨h1, h2⟩ := act_spec g w hs v ha a hf.1
    exact ih _ _ h1 h2 hf.2

/-- In particular a state on which no method is called keeps its values, whatever is done with the
other states, be they copies of it or the state it was copied from: `before` is any program that made
the states, `after` what happens later. -/
theorem C43_independent_partial (g : Grid K) (kind : StateKind) (before after : List (Action K))
    (hf : FairAll g (before ++ after) (World.new g kind)) (j : ℕ)
    (hj : j < (before.foldl (World.act g) (World.new g kind)).count)
    (hno : ∀ a ∈ after, ¬ Action.addresses j a) (v : Snapshot K)
    (hv : Shows g (before.foldl (World.act g) (World.new g kind)).heap
      ((before.foldl (World.act g) (World.new g kind)).state j) v) :
    Shows g ((before ++ after).foldl (World.act g) (World.new g kind)).heap
      (((before ++ after).foldl (World.act g) (World.new g kind)).state j) v := by
  have key : ∀ (actions : List (Action K)) (w : World K) (vs : ℕ → Snapshot K), Separate w →
      Agree g w vs → j < w.count → vs j = v → FairAll g actions w →
      (∀ a ∈ actions, ¬ Action.addresses j a) →
      Shows g (actions.foldl (World.act g) w).heap ((actions.foldl (World.act g) w).state j) v := by
    intro actions
    induction actions with
    | nil => intro w vs _ ha hj hv _ _; exact hv ▸ ha j hj
    | cons a as ih =>
      intro w vs hs ha hj hv hf hno
      obtain ⟨h1, h2⟩ := act_spec g w hs vs ha a hf.1
      have hna := hno a List.mem_cons_self
      refine ih (w.act g a) (valueAct g w vs a) h1 h2 ?_ ?_ hf.2
        (fun b hb => hno b (List.mem_cons_of_mem _ hb))
      · cases a <;> simp only [World.act] <;> omega
      · cases a with
        | call i op =>
          have : j ≠ i := fun e => hna e.symm
          simp [valueAct, this, hv]
        | copy i =>
          have : j ≠ w.count := by omega
          simp [valueAct, this, hv]
        | _ => exact hv
  obtain ⟨hf1, hf2⟩ := (fairAll_append g before after _).1 hf
  obtain ⟨hs, vs, ha⟩ := fair_run g before _ _ (world_new g kind).1 (world_new g kind).2 hf1
  rw [List.foldl_append]
  refine key after _ (fun i => if i = j then v else vs i) hs (fun i hi => ?_) hj (by simp) hf2 hno
  by_cases hij : i = j
  · subst hij; simpa using hv
  · simpa [hij] using ha i hi

/-- The values of a copy are those of the original, in any program. -/
theorem C43_same_values (g : Grid K) (kind : StateKind) (before : List (Action K)) (i : ℕ)
    (hf : FairAll g (before ++ [.copy i]) (World.new g kind)) (v : Snapshot K)
    (hv : Shows g (before.foldl (World.act g) (World.new g kind)).heap
      ((before.foldl (World.act g) (World.new g kind)).state i) v) :
    let w := before.foldl (World.act g) (World.new g kind)
    let w' := w.act g (.copy i)
    w'.count = w.count + 1 ∧ Shows g w'.heap (w'.state w.count) v ∧
      (i ≠ w.count → Shows g w'.heap (w'.state i) v) := by
  obtain ⟨hf1, hf2⟩ := (fairAll_append g before _ _).1 hf
  obtain ⟨hs, vs, ha⟩ := fair_run g before _ _ (world_new g kind).1 (world_new g kind).2 hf1
  obtain ⟨c1, c2, _⟩ := copy_spec g _ _ (hs.exist i hf2.1) v hv
  refine ⟨rfl, ?_, fun hi => ?_⟩
  · simpa [World.act] using c1
  · simp only [World.act, hi, if_false]
    exact shows_congr g _ _ _ _ (fun b hb => (c2 b (hs.exist i hf2.1 b hb)).symm) hv

/-- The copy becomes the state of the body, although it is the original that goes on. -/
theorem C43_body_state_wrong (g : Grid K) (w : World K) (i : ℕ) (hi : i < w.count) :
    (w.act g (.copy i)).bodyState = w.count ∧ (w.act g (.copy i)).bodyState ≠ i :=
  ⟨rfl, by simp only [World.act]; omega⟩

/-! #### Unfair programs -/

/-- One node on the line. -/
def lineGrid : Grid ℚ := { nodesCount := 1, dimension := 1, nodes := fun _ _ => 5 }

/-- The displacement of a state. -/
def shownDisplacement (w : World ℚ) (i : ℕ) : ℚ := (w.state i).displacement.read lineGrid w.heap 0 0

/-- A state is copied and both are given the same vector; then a velocity for the original changes
the displacement of the copy as well, and the vector of the caller. -/
theorem C43_shared_vector_wrong :
    let w := ([.copy 0, .vector fun _ => 3, .call 0 (.setDisplacement 8 1 false),
      .call 1 (.setDisplacement 8 1 false), .vector fun _ => 10] : List (Action ℚ)).foldl
      (World.act lineGrid) (World.new lineGrid .plain)
    let w' := w.act lineGrid (.call 0 (.setVelocity 9 2 true))
    shownDisplacement w 1 = 3 ∧ shownDisplacement w' 0 = 13 ∧ shownDisplacement w' 1 = 13 ∧
      w.heap.get 8 0 = 3 ∧ w'.heap.get 8 0 = 13 := by
  decide +kernel

/-- One vector given as displacement and as velocity of one state: the velocity changes when the
displacement is advanced. -/
theorem C43_reused_vector_wrong :
    let w := ([.vector fun _ => 3, .call 0 (.setDisplacement 4 0 false),
      .call 0 (.setVelocity 4 2 true)] : List (Action ℚ)).foldl
      (World.act lineGrid) (World.new lineGrid .plain)
    (w.state 0).velocity.read lineGrid w.heap 0 0 = 9 ∧ w.heap.get 4 0 = 9 := by
  decide +kernel

/-- A fair program: original and copy go different ways. -/
example :
    let actions : List (Action ℚ) := [.vector fun _ => 3, .call 0 (.setDisplacement 5 1 true), .copy 0,
      .vector fun _ => 10, .call 0 (.setVelocity 11 2 true), .vector fun _ => 100,
      .call 1 (.setVelocity 12 3 true), .vector fun _ => 7, .call 0 (.setScalar 13), .copy 1]
    let w := actions.foldl (World.act lineGrid) (World.new lineGrid .temperature)
    shownDisplacement w 0 = 13 ∧ shownDisplacement w 1 = 203 ∧ shownDisplacement w 2 = 203 := by
  decide +kernel

instance (w : World ℚ) (b : ℕ) : Decidable (InUse w b) := by
  unfold InUse; infer_instance

/-- It is fair. -/
example : FairAll lineGrid [.vector fun _ => 3, .call 0 (.setDisplacement 5 1 true), .copy 0,
      .vector fun _ => 10, .call 0 (.setVelocity 11 2 true), .vector fun _ => 100,
      .call 1 (.setVelocity 12 3 true), .vector fun _ => 7, .call 0 (.setScalar 13), .copy 1]
      (World.new lineGrid .temperature) := by
  refine ⟨trivial, ⟨?_, ?_, ?_⟩, ?_, trivial, ⟨?_, ?_, ?_⟩, trivial, ⟨?_, ?_, ?_⟩, trivial,
    ⟨?_, ?_, ?_⟩, ?_, trivial⟩ <;> first | decide +kernel | (simp only [Fair]; decide +kernel)

/-! #### Products -/

section products
variable [DecidableEq K] {V E : Type}

/-- Copied products hold the data of the original ones, and updates of the original leave them
alone. -/
theorem C43_products_partial (g : Grid K) (s : State K) (st : ProductStore K V)
    (hids : ∀ p ∈ s.products, p.2 < st.next) (hsc : s.scalar = .absent) :
    observe (s.copy g st).2 (s.copy g st).1 = observe st s ∧
    observe (s.copy g st).2 s = observe st s ∧
    ∀ (snap : Snapshot K) (st' : ProductStore K V),
      (updateAll snap s.products (s.copy g st).2 : Except (RunError E) _) = .ok st' →
      observe st' (s.copy g st).1 = observe st s := by
  obtain ⟨c1, c2, c3, c4⟩ := copyProducts_spec s.products st hids
  have hcopy : (s.copy g st).1.products = (State.copyProducts s.products st).1 ∧
      (s.copy g st).2 = (State.copyProducts s.products st).2 := by
    unfold State.copy
    rw [hsc]
    exact ⟨rfl, rfl⟩
  have hcont : ∀ st' : ProductStore K V,
      (∀ p ∈ (State.copyProducts s.products st).1,
        st'.get p.2 = (State.copyProducts s.products st).2.get p.2) →
      observe st' (s.copy g st).1 = observe st s := by
    intro st' h
    unfold observe productContents
    rw [copy_snapshot, hcopy.1]
    congr 1
    have : (State.copyProducts s.products st).1.map
          (fun p => (p.1, (st'.get p.2).name, (st'.get p.2).data)) =
        ((State.copyProducts s.products st).1.map
          (fun p => (p.1, (State.copyProducts s.products st).2.get p.2))).map
          (fun q => (q.1, q.2.name, q.2.data)) := by
      rw [List.map_map]
      refine List.map_congr_left fun p hp => ?_
      simp only [Function.comp, h p hp]
    rw [this, c4, List.map_map]
    rfl
  refine ⟨hcont _ fun p _ => by rw [hcopy.2], ?_, fun snap st' hu => hcont _ fun p hp => ?_⟩
  · unfold observe productContents
    congr 1
    refine List.map_congr_left fun p hp => ?_
    rw [hcopy.2, c2 p.2 (hids p hp)]
  · obtain ⟨_, f2, _⟩ := updateAll_frame _ _ _ _ hu
    rw [f2 p.2 ?_, hcopy.2]
    intro hmem
    obtain ⟨q, hq, he⟩ := List.mem_map.1 hmem
    have := hids q hq
    have := (c3 p hp).1
    omega

/-- A copy with a product cannot be changed any more: setting displacement or velocity raises
`NotImplementedError`. -/
theorem C43_copied_product_wrong (g : Grid K) (s : State K) (st : ProductStore K V)
    (hids : ∀ p ∈ s.products, p.2 < st.next) (hsc : s.scalar = .absent) (hne : s.products ≠ [])
    (x : ℕ → K) (t : K) (u : Bool) :
    ((s.copy g st).1.setVelocity g x t u (s.copy g st).2 : Except (RunError E) _) =
      .error .notImplemented ∧
    ((s.copy g st).1.setDisplacement g x t u (s.copy g st).2 : Except (RunError E) _) =
      .error .notImplemented := by
  obtain ⟨c1, c2, c3, c4⟩ := copyProducts_spec s.products st hids
  have hcopy : (s.copy g st).1.products = (State.copyProducts s.products st).1 ∧
      (s.copy g st).2 = (State.copyProducts s.products st).2 := by
    unfold State.copy
    rw [hsc]
    exact ⟨rfl, rfl⟩
  have hup : ∀ snap : Snapshot K, (updateAll snap (s.copy g st).1.products (s.copy g st).2 :
      Except (RunError E) _) = .error .notImplemented := by
    intro snap
    rw [hcopy.1, hcopy.2]
    cases hp : (State.copyProducts s.products st).1 with
    | nil =>
      rw [hp] at c4
      cases hs : s.products with
      | nil => exact absurd hs hne
      | cons q l => rw [hs] at c4; simp at c4
    | cons p rest =>
      rw [hp] at c4
      obtain ⟨name, id⟩ := p
      have hr : ((State.copyProducts s.products st).2.get id).rule = none := by
        cases hs : s.products with
        | nil => exact absurd hs hne
        | cons q l =>
          rw [hs] at c4
          simp only [List.map_cons, List.cons.injEq, Prod.mk.injEq] at c4
          rw [hs] at *
          rw [c4.1.2]
          rfl
      simp only [updateAll, Product.update, hr, bind, Except.bind]
  constructor
  · have hpr : ((s.copy g st).1.withVelocity g x t u).products = (s.copy g st).1.products := by
      cases u <;> rfl
    simp only [State.setVelocity, bind, Except.bind]
    rw [hpr, hup]
  · have hpr : ((s.copy g st).1.withDisplacement g x t u).products = (s.copy g st).1.products := by
      cases u <;> rfl
    simp only [State.setDisplacement, bind, Except.bind]
    rw [hpr, hup]

omit [DecidableEq K] in
/-- Copies of states with temperature or potential have no products. -/
theorem C43_scalar_products_wrong (g : Grid K) (s : State K) (st : ProductStore K V)
    (hsc : s.scalar ≠ .absent) : (s.copy g st).1.products = [] := by
  unfold State.copy
  cases h : s.scalar with
  | absent => exact absurd h hsc
  | temperature f => rfl
  | potential f => rfl

end products

end Conmech
