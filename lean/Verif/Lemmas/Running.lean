import Verif.Spec.Running
import Verif.Lemmas.Solvers
import Mathlib.Data.List.Basic
import Mathlib.Tactic.Ring
/-!
Lemmas on the time loops.
-/
namespace Conmech
open Spec

section store
variable {K : Type} [Field K] {V E : Type}

theorem updateAll_nil [DecidableEq K] (s : Snapshot K) (st : ProductStore K V) :
    (updateAll s [] st : Except (RunError E) _) = .ok st := rfl

theorem Product.update_ok [DecidableEq K] (p : Product K V) (s : Snapshot K) (p' : Product K V)
    (h : (p.update s : Except (RunError E) _) = .ok p') :
    ∃ f, p.rule = some f ∧ p' = { p with data := dictSet s.time (f s) p.data } := by
  unfold Product.update at h
  cases hr : p.rule with
  | none => simp [hr] at h
  | some f => exact ⟨f, rfl, by simpa [hr] using h.symm⟩

/-- Updating the products creates no object and touches only the products of the state. -/
theorem updateAll_frame [DecidableEq K] (s : Snapshot K) (l : List (String × ℕ))
    (st st' : ProductStore K V) (h : (updateAll s l st : Except (RunError E) _) = .ok st') :
    st'.next = st.next ∧ (∀ id, id ∉ l.map Prod.snd → st'.get id = st.get id) ∧
      ∀ id, (st'.get id).name = (st.get id).name ∧ (st'.get id).rule = (st.get id).rule := by
  induction l generalizing st with
  | nil => cases h; exact ⟨rfl, fun _ _ => rfl, fun _ => ⟨rfl, rfl⟩⟩
  | cons p l ih =>
    obtain ⟨name, id⟩ := p
    simp only [updateAll, bind, Except.bind] at h
    cases hp : (Product.update (st.get id) s : Except (RunError E) _) with
    | error e => simp [hp] at h
    | ok p' =>
      simp only [hp] at h
      obtain ⟨h1, h2, h3⟩ := ih _ h
      obtain ⟨f, hf, rfl⟩ := Product.update_ok _ _ _ hp
      refine ⟨by rw [h1]; rfl, fun i hi => ?_, fun i => ?_⟩
      · simp only [List.map_cons, List.mem_cons, not_or] at hi
        rw [h2 i hi.2]
        simp [ProductStore.set, hi.1]
      · rw [(h3 i).1, (h3 i).2]
        by_cases hi : i = id <;> simp [ProductStore.set, hi]

/-- The result of an update depends only on the objects of the state. -/
theorem updateAll_congr [DecidableEq K] (P : ℕ → Prop) (s : Snapshot K) (l : List (String × ℕ))
    (hl : ∀ p ∈ l, P p.2) (st1 st2 : ProductStore K V) (hst : ∀ id, P id → st1.get id = st2.get id)
    (st1' : ProductStore K V) (h : (updateAll s l st1 : Except (RunError E) _) = .ok st1') :
    ∃ st2', (updateAll s l st2 : Except (RunError E) _) = .ok st2' ∧
      ∀ id, P id → st1'.get id = st2'.get id := by
  induction l generalizing st1 st2 with
  | nil => cases h; exact ⟨st2, rfl, hst⟩
  | cons p l ih =>
    obtain ⟨name, id⟩ := p
    simp only [updateAll, bind, Except.bind] at h ⊢
    rw [← hst id (hl _ List.mem_cons_self)]
    cases hp : (Product.update (st1.get id) s : Except (RunError E) _) with
    | error e => simp [hp] at h
    | ok p' =>
      simp only [hp] at h
      refine ih (fun p hp => hl p (List.mem_cons_of_mem _ hp)) _ _ (fun i hi => ?_) h
      by_cases h' : i = id
      · simp [ProductStore.set, h']
      · simp [ProductStore.set, h', hst i hi]

/-- Copied products are new objects with the same contents. -/
theorem copyProducts_spec (l : List (String × ℕ)) (st : ProductStore K V)
    (hl : ∀ p ∈ l, p.2 < st.next) :
    st.next ≤ (State.copyProducts l st).2.next ∧
    (∀ id < st.next, (State.copyProducts l st).2.get id = st.get id) ∧
    (∀ p ∈ (State.copyProducts l st).1, st.next ≤ p.2 ∧ p.2 < (State.copyProducts l st).2.next) ∧
    (State.copyProducts l st).1.map (fun p => (p.1, (State.copyProducts l st).2.get p.2)) =
      l.map fun p => (p.1, (st.get p.2).copy) := by
  induction l generalizing st with
  | nil => exact ⟨le_refl _, fun _ _ => rfl, by simp [State.copyProducts], rfl⟩
  | cons p l ih =>
    obtain ⟨name, id⟩ := p
    have hid : id < st.next := hl _ List.mem_cons_self
    obtain ⟨h1, h2, h3, h4⟩ := ih (st.alloc (st.get id).copy).1 (fun p hp =>
      lt_trans (hl p (List.mem_cons_of_mem _ hp)) (Nat.lt_succ_self _))
    have hn : (st.alloc (st.get id).copy).1.next = st.next + 1 := rfl
    rw [hn] at h1 h2 h3
    have hget : ∀ i < st.next, (st.alloc (st.get id).copy).1.get i = st.get i := fun i hi => by
      simp [ProductStore.alloc, Nat.ne_of_lt hi]
    refine ⟨?_, fun i hi => ?_, fun q hq => ?_, ?_⟩
    · show st.next ≤ (State.copyProducts l (st.alloc (st.get id).copy).1).2.next
      omega
    · show (State.copyProducts l (st.alloc (st.get id).copy).1).2.get i = _
      rw [h2 i (by omega), hget i hi]
    · change q ∈ (name, st.next) :: (State.copyProducts l (st.alloc (st.get id).copy).1).1 at hq
      change _ ∧ q.2 < (State.copyProducts l (st.alloc (st.get id).copy).1).2.next
      rcases List.mem_cons.1 hq with rfl | hq
      · exact ⟨le_refl _, by omega⟩
      · have := h3 q hq; omega
    · change ((name, st.next) :: (State.copyProducts l (st.alloc (st.get id).copy).1).1).map
        (fun p => (p.1, (State.copyProducts l (st.alloc (st.get id).copy).1).2.get p.2)) = _
      rw [List.map_cons, List.map_cons, h4]
      congr 1
      · rw [h2 st.next (by omega)]; simp [ProductStore.alloc]
      · refine List.map_congr_left fun q hq => ?_
        rw [hget q.2 (hl q (List.mem_cons_of_mem _ hq))]

theorem copy_snapshot (g : Grid K) (s : State K) (st : ProductStore K V) :
    (s.copy g st).1.toSnapshot = s.toSnapshot := by
  obtain ⟨⟨ab, di, dn, ve, sc, ti⟩, pr, se, la, stre⟩ := s
  cases sc <;> rfl

/-! ### Dictionaries -/

/-- `d.get(key)` -/
def dictGet {α β : Type} [DecidableEq α] (key : α) : List (α × β) → Option β
  | [] => none
  | (k, v) :: rest => if k = key then some v else dictGet key rest

theorem dictGet_set {α β : Type} [DecidableEq α] (key k : α) (value : β) (d : List (α × β)) :
    dictGet k (dictSet key value d) = if k = key then some value else dictGet k d := by
  induction d with
  | nil => simp only [dictSet, dictGet]; split_ifs with h1 h2 h2 <;> simp_all
  | cons p d ih =>
    obtain ⟨a, v⟩ := p
    simp only [dictSet]
    by_cases h1 : a = key <;> by_cases h2 : k = key
    · subst h1; subst h2; simp [dictGet]
    · have h3 : ¬key = k := fun h => h2 h.symm
      simp [dictGet, h1, h2, h3]
    · subst h2; simp [dictGet, h1, ih]
    · simp [dictGet, ih, h2, h1]

theorem dictSet_same {α β : Type} [DecidableEq α] (key : α) (value : β) (d : List (α × β))
    (h : dictGet key d = some value) : dictSet key value d = d := by
  induction d with
  | nil => simp [dictGet] at h
  | cons p d ih =>
    obtain ⟨a, v⟩ := p
    simp only [dictSet, dictGet] at *
    split_ifs at * with h1
    · simp_all
    · rw [ih h]

theorem injectAll_get (name : ℕ → String) (l : List ℕ) (s : State K) (k : String)
    (hk : k ∉ l.map name) :
    dictGet k (l.foldl (fun s id => s.injectProduct (name id) id) s).products = dictGet k s.products := by
  induction l generalizing s with
  | nil => rfl
  | cons a l ih =>
    simp only [List.map_cons, List.mem_cons, not_or] at hk
    rw [List.foldl_cons, ih _ hk.2]
    simp [State.injectProduct, dictGet_set, hk.1]

theorem injectAll_mem (name : ℕ → String) (l : List ℕ) (hn : (l.map name).Nodup) (s : State K)
    (id : ℕ) (hid : id ∈ l) :
    dictGet (name id) (l.foldl (fun s id => s.injectProduct (name id) id) s).products = some id := by
  induction l generalizing s with
  | nil => simp at hid
  | cons a l ih =>
    rw [List.map_cons, List.nodup_cons] at hn
    rw [List.foldl_cons]
    by_cases ha : id ∈ l
    · exact ih hn.2 _ ha
    · rcases List.mem_cons.1 hid with rfl | h
      · rw [injectAll_get _ _ _ _ hn.1]
        simp [State.injectProduct, dictGet_set]
      · exact absurd h ha

theorem injectAll_same (name : ℕ → String) (l : List ℕ) (s : State K)
    (h : ∀ id ∈ l, dictGet (name id) s.products = some id) :
    l.foldl (fun s id => s.injectProduct (name id) id) s = s := by
  induction l with
  | nil => rfl
  | cons a l ih =>
    rw [List.foldl_cons]
    have : s.injectProduct (name a) a = s := by
      unfold State.injectProduct
      rw [dictSet_same _ _ _ (h a List.mem_cons_self)]
    rw [this]
    exact ih fun id hid => h id (List.mem_cons_of_mem _ hid)

theorem injectAll_snapshot (name : ℕ → String) (l : List ℕ) (s : State K) :
    (l.foldl (fun s id => s.injectProduct (name id) id) s).toSnapshot = s.toSnapshot := by
  induction l generalizing s with
  | nil => rfl
  | cons a l ih => rw [List.foldl_cons, ih]; rfl

theorem dictSet_mem {α β : Type} [DecidableEq α] (key : α) (value : β) (d : List (α × β))
    (p : α × β) (h : p ∈ dictSet key value d) : p.2 = value ∨ p ∈ d := by
  induction d with
  | nil => simp only [dictSet, List.mem_singleton] at h; left; rw [h]
  | cons q d ih =>
    obtain ⟨a, v⟩ := q
    simp only [dictSet] at h
    split_ifs at h
    · rcases List.mem_cons.1 h with rfl | h
      · left; rfl
      · right; exact List.mem_cons_of_mem _ h
    · rcases List.mem_cons.1 h with rfl | h
      · right; exact List.mem_cons_self
      · rcases ih h with h | h
        · left; exact h
        · right; exact List.mem_cons_of_mem _ h

theorem injectAll_ids (name : ℕ → String) (l : List ℕ) (P : ℕ → Prop) (hl : ∀ id ∈ l, P id)
    (s : State K) (hs : ∀ p ∈ s.products, P p.2) :
    ∀ p ∈ (l.foldl (fun s id => s.injectProduct (name id) id) s).products, P p.2 := by
  induction l generalizing s with
  | nil => exact hs
  | cons a l ih =>
    rw [List.foldl_cons]
    refine ih (fun id hid => hl id (List.mem_cons_of_mem _ hid)) _ fun p hp => ?_
    rcases dictSet_mem _ _ _ _ hp with h | h
    · rw [h]; exact hl a List.mem_cons_self
    · exact hs p h

end store

/-! ### One step -/

section step
variable {K : Type} [Field K] [DecidableEq K] {V : Type}

/-- What `iterate` leaves alone. -/
theorem Engine.iterate_ok (e : Engine K) (s s' : SolverState K) (h : e.iterate s = .ok s') :
    s' = { s with system := s'.system, schur := s'.schur } := by
  unfold Engine.iterate SolverState.iterate at h
  cases hv : e.cls.iterateVariables s with
  | none => simp only [hv, liftStatement] at h; cases h; rfl
  | some var =>
    simp only [hv] at h
    cases hu : s.updateSystem e.kind e.ops e.boundaries var with
    | error err => simp [hu, liftStatement] at h
    | ok s'' =>
      simp only [hu, liftStatement] at h
      cases h
      obtain ⟨S, _, h2⟩ := updateSystem_ok _ _ _ _ _ _ hu
      rw [h2]

/-- The part of a step that concerns the state and the vectors of the solver. -/
def Engine.advance (e : Engine K) (solver : SolverState K) (s : State K) :
    Coordinates → Option (State K × SolverState K)
  | .displacement =>
    let solver := { solver with currentTime := solver.currentTime + solver.timeStep }
    let s := s.withDisplacement e.grid (e.solve solver (State.flatten e.grid s.displacement))
      solver.currentTime true
    some (s, { solver with
      bVector := State.flatten e.grid s.absement
      uVector := State.flatten e.grid s.displacement })
  | .velocity =>
    let solver := { solver with currentTime := solver.currentTime + solver.timeStep }
    let s := s.withVelocity e.grid (e.solve solver (State.flatten e.grid s.velocity))
      solver.currentTime true
    some (s, { solver with
      uVector := State.flatten e.grid s.displacement
      vVector := State.flatten e.grid s.velocity })
  | .temperature => none

theorem Engine.step_eq (e : Engine K) (c : Coordinates) (sim : Simulation K V) :
    e.step c sim = match e.advance sim.solver sim.state c with
      | none => .error .unknownCoordinates
      | some (s, solver) => do
        let st ← updateAll s.toSnapshot s.products sim.store
        let solver ← e.iterate solver
        return { solver := solver, state := s, store := st } := by
  cases c
  · simp only [Engine.step, Engine.findSolution, Engine.item, Engine.advance, State.setDisplacement,
      bind, Except.bind, pure, Except.pure]
    cases (updateAll (K := K) _ _ sim.store : Except (RunError StatementError) _) <;> rfl
  · simp only [Engine.step, Engine.findSolution, Engine.item, Engine.advance, State.setVelocity,
      bind, Except.bind, pure, Except.pure]
    cases (updateAll (K := K) _ _ sim.store : Except (RunError StatementError) _) <;> rfl
  · rfl

theorem Engine.step_ok_iff (e : Engine K) (c : Coordinates) (sim sim' : Simulation K V) :
    e.step c sim = .ok sim' ↔ ∃ solver, e.advance sim.solver sim.state c = some (sim'.state, solver) ∧
      updateAll sim'.state.toSnapshot sim'.state.products sim.store
        = (.ok sim'.store : Except (RunError StatementError) _) ∧
      e.iterate solver = .ok sim'.solver := by
  rw [Engine.step_eq]
  cases ha : e.advance sim.solver sim.state c with
  | none => simp
  | some p =>
    obtain ⟨s, solver⟩ := p
    simp only [bind, Except.bind, pure, Except.pure]
    constructor
    · intro h
      cases hu : (updateAll s.toSnapshot s.products sim.store :
          Except (RunError StatementError) _) with
      | error err => simp [hu] at h
      | ok st =>
        cases hi : e.iterate solver with
        | error err => simp [hu, hi] at h
        | ok solver' =>
          simp only [hu, hi] at h
          cases h
          exact ⟨solver, rfl, hu, hi⟩
    · rintro ⟨solver', h1, h2, h3⟩
      simp only [Option.some.injEq, Prod.mk.injEq] at h1
      obtain ⟨rfl, rfl⟩ := h1
      rw [h2]; dsimp only; rw [h3]

theorem Engine.advance_products (e : Engine K) (c : Coordinates) (solver solver' : SolverState K)
    (s s' : State K) (h : e.advance solver s c = some (s', solver')) : s'.products = s.products := by
  cases c <;> simp only [Engine.advance, Option.some.injEq, Prod.mk.injEq, reduceCtorEq] at h
  · rw [← h.1]; rfl
  · rw [← h.1]; rfl

theorem Engine.step_products (e : Engine K) (c : Coordinates) (sim sim' : Simulation K V)
    (h : e.step c sim = .ok sim') : sim'.state.products = sim.state.products := by
  obtain ⟨_, h1, _⟩ := (e.step_ok_iff c sim sim').1 h
  exact e.advance_products _ _ _ _ _ h1

/-- Two simulations that differ at most in product objects with numbers at least `b`. -/
structure Close (b : ℕ) (sim sim' : Simulation K V) : Prop where
  solver : sim.solver = sim'.solver
  state : sim.state = sim'.state
  store : ∀ id < b, sim.store.get id = sim'.store.get id

theorem Engine.step_close (e : Engine K) (c : Coordinates) (b : ℕ) (sim1 sim2 sim1' : Simulation K V)
    (hp : ∀ p ∈ sim1.state.products, p.2 < b) (hc : Close b sim1 sim2)
    (h : e.step c sim1 = .ok sim1') :
    ∃ sim2', e.step c sim2 = .ok sim2' ∧ Close b sim1' sim2' ∧
      sim2'.store.next = sim2.store.next ∧
      ∀ id, b ≤ id → sim2'.store.get id = sim2.store.get id := by
  have hpr := e.step_products c _ _ h
  obtain ⟨solver, h1, h2, h3⟩ := (e.step_ok_iff c sim1 sim1').1 h
  obtain ⟨st2, h4, h5⟩ := updateAll_congr (fun i => i < b) _ _ (by rw [hpr]; exact hp) _ sim2.store
    hc.store _ h2
  obtain ⟨h6, h7, _⟩ := updateAll_frame _ _ _ _ h4
  refine ⟨⟨sim1'.solver, sim1'.state, st2⟩, ?_, ⟨rfl, rfl, h5⟩, h6, fun id hid => h7 id ?_⟩
  · rw [Engine.step_ok_iff]
    exact ⟨solver, by rw [← hc.solver, ← hc.state]; exact h1, h4, h3⟩
  · intro hmem
    obtain ⟨p, hp', rfl⟩ := List.mem_map.1 hmem
    rw [hpr] at hp'
    exact absurd (hp p hp') (by omega)

theorem Engine.steps_follows (e : Engine K) (c : Coordinates) (n : ℕ) (sim : Simulation K V)
    (traj : ℕ → Simulation K V) (h : Follows (e.step c) n traj) (h0 : traj 0 = sim) :
    e.steps c n sim = .ok (traj n) := by
  induction n generalizing sim traj with
  | zero => rw [← h0]; rfl
  | succ n ih =>
    have h1 := h 0 (by omega)
    rw [h0] at h1
    simp only [Engine.steps, bind, Except.bind, h1]
    exact ih _ (fun k => traj (k + 1)) (fun k hk => h (k + 1) (by omega)) rfl

theorem Engine.follows_of_steps (e : Engine K) (c : Coordinates) (n : ℕ) (sim sim' : Simulation K V)
    (h : e.steps c n sim = .ok sim') : ∃ traj, Follows (e.step c) n traj ∧ traj 0 = sim ∧
      traj n = sim' := by
  induction n generalizing sim with
  | zero => cases h; exact ⟨fun _ => sim', fun k hk => absurd hk (by omega), rfl, rfl⟩
  | succ n ih =>
    simp only [Engine.steps, bind, Except.bind] at h
    cases h1 : e.step c sim with
    | error err => simp [h1] at h
    | ok sim1 =>
      simp only [h1] at h
      obtain ⟨traj, ht, h0, hn⟩ := ih _ h
      refine ⟨fun k => match k with | 0 => sim | k + 1 => traj k, fun k hk => ?_, rfl, hn⟩
      cases k with
      | zero => simpa [h0] using h1
      | succ k => exact ht k (by omega)

theorem follows_products (e : Engine K) (c : Coordinates) (n : ℕ) (traj : ℕ → Simulation K V)
    (h : Follows (e.step c) n traj) (k : ℕ) (hk : k ≤ n) :
    (traj k).state.products = (traj 0).state.products := by
  induction k with
  | zero => rfl
  | succ k ih => rw [e.step_products c _ _ (h k (by omega)), ih (by omega)]

theorem follows_names (e : Engine K) (c : Coordinates) (n : ℕ) (traj : ℕ → Simulation K V)
    (h : Follows (e.step c) n traj) (k : ℕ) (hk : k ≤ n) (id : ℕ) :
    ((traj k).store.get id).name = ((traj 0).store.get id).name := by
  induction k with
  | zero => rfl
  | succ k ih =>
    obtain ⟨_, _, h2, _⟩ := (e.step_ok_iff c _ _).1 (h k (by omega))
    rw [((updateAll_frame _ _ _ _ h2).2.2 id).1, ih (by omega)]

/-- Steps from a simulation close to the trajectory. -/
theorem Engine.steps_close (e : Engine K) (c : Coordinates) (b m : ℕ) (traj : ℕ → Simulation K V)
    (h : Follows (e.step c) m traj) (hp : ∀ p ∈ (traj 0).state.products, p.2 < b) (n k : ℕ)
    (hk : k + n ≤ m) (sim : Simulation K V) (hc : Close b (traj k) sim) :
    ∃ sim', e.steps c n sim = .ok sim' ∧ Close b (traj (k + n)) sim' ∧
      sim'.store.next = sim.store.next ∧
      ∀ id, b ≤ id → sim'.store.get id = sim.store.get id := by
  induction n generalizing k sim with
  | zero => exact ⟨sim, rfl, hc, rfl, fun _ _ => rfl⟩
  | succ n ih =>
    obtain ⟨s1, h1, h2, h3, h4⟩ := e.step_close c b _ _ _
      (by rw [follows_products e c m traj h k (by omega)]; exact hp) hc (h k (by omega))
    obtain ⟨s2, h5, h6, h7, h8⟩ := ih (k + 1) (by omega) s1 h2
    refine ⟨s2, ?_, ?_, h7.trans h3, fun id hid => (h8 id hid).trans (h4 id hid)⟩
    · simp only [Engine.steps, bind, Except.bind, h1]; exact h5
    · rw [show k + (n + 1) = k + 1 + n by omega]; exact h6

/-! ### Outputs -/

/-- The numbers of steps after which copies are made. -/
def stops (k : ℕ) : List ℤ → List ℕ
  | [] => []
  | n :: rest => (k + n.toNat) :: stops (k + n.toNat) rest

/-- All steps made. -/
def total : List ℤ → ℕ
  | [] => 0
  | n :: rest => n.toNat + total rest

/-- The products given to `run` are those of the state already. -/
structure Injected (b : ℕ) (products : List ℕ) (sim : Simulation K V) : Prop where
  ids : ∀ p ∈ sim.state.products, p.2 < b
  bound : ∀ id ∈ products, id < b
  present : ∀ id ∈ products, dictGet (sim.store.get id).name sim.state.products = some id

theorem Injected.inject_eq {b : ℕ} {products : List ℕ} {sim : Simulation K V}
    (h : Injected b products sim) : Engine.inject products sim = sim := by
  unfold Engine.inject
  rw [injectAll_same (fun id => (sim.store.get id).name) products sim.state h.present]

theorem Injected.close {b : ℕ} {products : List ℕ} {sim sim' : Simulation K V}
    (h : Injected b products sim) (hc : Close b sim sim') : Injected b products sim' :=
  ⟨hc.state ▸ h.ids, h.bound, fun id hid => by
    rw [← hc.state, ← hc.store id (h.bound id hid)]; exact h.present id hid⟩

theorem Injected.follows {b : ℕ} {products : List ℕ} (e : Engine K) (c : Coordinates) (n : ℕ)
    (traj : ℕ → Simulation K V) (h : Follows (e.step c) n traj) (h0 : Injected b products (traj 0))
    (k : ℕ) (hk : k ≤ n) : Injected b products (traj k) := by
  have hp := follows_products e c n traj h k hk
  refine ⟨hp ▸ h0.ids, h0.bound, fun id hid => ?_⟩
  rw [follows_names e c n traj h k hk, hp]
  exact h0.present id hid

/-- After injection the products are present. -/
theorem injected_inject (products : List ℕ) (sim : Simulation K V) (b : ℕ)
    (hs : ∀ p ∈ sim.state.products, p.2 < b) (hp : ∀ id ∈ products, id < b)
    (hn : (products.map fun id => (sim.store.get id).name).Nodup) :
    Injected b products (Engine.inject products sim) :=
  ⟨injectAll_ids (fun id => (sim.store.get id).name) products (· < b) hp sim.state hs, hp,
    fun id hid => injectAll_mem (fun id => (sim.store.get id).name) products hn sim.state id hid⟩

theorem close_refl (b : ℕ) (sim : Simulation K V) : Close b sim sim := ⟨rfl, rfl, fun _ _ => rfl⟩

theorem Close.symm {b : ℕ} {sim sim' : Simulation K V} (h : Close b sim sim') : Close b sim' sim :=
  ⟨h.solver.symm, h.state.symm, fun id hid => (h.store id hid).symm⟩

/-- A copy has the contents of the original, and making it changes no existing product. -/
theorem copy_observe (g : Grid K) (s : State K) (st : ProductStore K V)
    (hs : s.scalar = .absent) (hp : ∀ p ∈ s.products, p.2 < st.next) :
    st.next ≤ (s.copy g st).2.next ∧
    (∀ id < st.next, (s.copy g st).2.get id = st.get id) ∧
    (∀ p ∈ (s.copy g st).1.products, p.2 < (s.copy g st).2.next ∧ st.next ≤ p.2) ∧
    observe (s.copy g st).2 (s.copy g st).1 = observe st s := by
  obtain ⟨h1, h2, h3, h4⟩ := copyProducts_spec s.products st hp
  have hc : (s.copy g st).1.products = (State.copyProducts s.products st).1 ∧
      (s.copy g st).2 = (State.copyProducts s.products st).2 := by
    simp only [State.copy, hs, and_self]
  unfold observe productContents
  rw [copy_snapshot, hc.1, hc.2]
  refine ⟨h1, h2, fun p hp => ⟨(h3 p hp).2, (h3 p hp).1⟩, ?_⟩
  congr 1
  have := congrArg (List.map fun p : String × Product K V => (p.1, p.2.name, p.2.data)) h4
  simpa [List.map_map, Function.comp_def, Product.copy] using this

theorem step_scalar (e : Engine K) (c : Coordinates) (sim sim' : Simulation K V)
    (h : e.step c sim = .ok sim') : sim'.state.scalar = sim.state.scalar := by
  obtain ⟨_, h1, _⟩ := (e.step_ok_iff c sim sim').1 h
  cases c <;> simp only [Engine.advance, Option.some.injEq, Prod.mk.injEq, reduceCtorEq] at h1
  · rw [← h1.1]; rfl
  · rw [← h1.1]; rfl

theorem follows_scalar (e : Engine K) (c : Coordinates) (n : ℕ) (traj : ℕ → Simulation K V)
    (h : Follows (e.step c) n traj) (k : ℕ) (hk : k ≤ n) :
    (traj k).state.scalar = (traj 0).state.scalar := by
  induction k with
  | zero => rfl
  | succ k ih => rw [step_scalar e c _ _ (h k (by omega)), ih (by omega)]

/-- The observation of a state depends only on its products. -/
theorem observe_congr (st st' : ProductStore K V) (s : State K)
    (h : ∀ p ∈ s.products, st.get p.2 = st'.get p.2) : observe st s = observe st' s := by
  unfold observe productContents
  congr 1
  exact List.map_congr_left fun p hp => by rw [h p hp]

/-- The copies made along a run show the trajectory. -/
theorem Engine.outputs_follows (e : Engine K) (c : Coordinates) (b m : ℕ) (products : List ℕ)
    (traj : ℕ → Simulation K V) (h : Follows (e.step c) m traj)
    (hi : Injected b products (traj 0)) (hs : (traj 0).state.scalar = .absent)
    (ns : List ℤ) (k : ℕ) (hk : k + total ns ≤ m) (sim : Simulation K V)
    (hc : Close b (traj k) sim) (hb : b ≤ sim.store.next) :
    ∃ results sim', e.outputs c products ns sim = .ok (results, sim') ∧
      Close b (traj (k + total ns)) sim' ∧ sim.store.next ≤ sim'.store.next ∧
      (∀ id, b ≤ id → id < sim.store.next → sim'.store.get id = sim.store.get id) ∧
      results.map (observe sim'.store) =
        (stops k ns).map fun o => observe (traj o).store (traj o).state := by
  induction ns generalizing k sim with
  | nil => exact ⟨[], sim, rfl, by simpa [total] using hc, le_refl _, fun _ _ _ => rfl, rfl⟩
  | cons n ns ih =>
    simp only [total] at hk
    have hik := (hi.follows e c m traj h k (by omega)).close hc
    obtain ⟨s1, h1, h2, h3, h4⟩ := e.steps_close c b m traj h hi.ids n.toNat k (by omega) sim hc
    have hi1 := (hi.follows e c m traj h (k + n.toNat) (by omega)).close h2
    have hsc : s1.state.scalar = .absent := by
      rw [← h2.state, follows_scalar e c m traj h _ (by omega), hs]
    obtain ⟨c1, c2, c3, c4⟩ := copy_observe e.grid s1.state s1.store hsc
      (fun p hp => lt_of_lt_of_le (hi1.ids p hp) (by omega))
    obtain ⟨rs, s2, h5, h6, h7, h8, h9⟩ := ih (k + n.toNat) (by omega)
      { s1 with store := (s1.state.copy e.grid s1.store).2 }
      ⟨h2.solver, h2.state, fun id hid => by
        rw [h2.store id hid]; exact (c2 id (by omega)).symm⟩ (by dsimp only; omega)
    dsimp only at h7 h8
    refine ⟨(s1.state.copy e.grid s1.store).1 :: rs, s2, ?_, ?_, by omega, fun id hb hid => ?_, ?_⟩
    · simp only [Engine.outputs, Engine.run, hik.inject_eq, h1, bind, Except.bind, h5]
      rfl
    · simp only [total]
      rw [← Nat.add_assoc]; exact h6
    · rw [h8 id hb (by omega), c2 id (by omega), h4 id hb]
    · simp only [stops, List.map_cons, h9]
      congr 1
      rw [observe_congr s2.store (s1.state.copy e.grid s1.store).2, c4, ← h2.state]
      · refine observe_congr _ _ _ fun p hp => ?_
        rw [h2.state] at hp
        exact (h2.store p.2 (hi1.ids p hp)).symm
      · intro p hp
        have := c3 p hp
        exact h8 p.2 (by omega) (by omega)

theorem Engine.steps_add (e : Engine K) (c : Coordinates) (m n : ℕ) (sim : Simulation K V) :
    e.steps c (m + n) sim = (e.steps c m sim).bind (e.steps c n) := by
  induction m generalizing sim with
  | zero => rw [Nat.zero_add]; rfl
  | succ m ih =>
    rw [show m + 1 + n = (m + n) + 1 by omega]
    simp only [Engine.steps, bind, Except.bind]
    cases e.step c sim with
    | error err => rfl
    | ok s => exact ih s

/-- A run with outputs contains the run without them. -/
theorem Engine.steps_of_outputs (e : Engine K) (c : Coordinates) (b : ℕ) (products : List ℕ)
    (ns : List ℤ) (sim : Simulation K V) (hi : Injected b products sim)
    (hs : sim.state.scalar = .absent) (hb : b ≤ sim.store.next) (r : List (State K) × Simulation K V)
    (h : e.outputs c products ns sim = .ok r) : ∃ sim', e.steps c (total ns) sim = .ok sim' := by
  induction ns generalizing sim r with
  | nil => exact ⟨sim, rfl⟩
  | cons n ns ih =>
    simp only [Engine.outputs, Engine.run, hi.inject_eq, bind, Except.bind] at h
    cases h1 : e.steps c n.toNat sim with
    | error err => simp [h1] at h
    | ok s1 =>
      simp only [h1] at h
      obtain ⟨traj, ht, h0, hn⟩ := e.follows_of_steps c _ _ _ h1
      have hi1 : Injected b products s1 := by
        rw [← hn]; exact Injected.follows e c _ traj ht (h0 ▸ hi) _ (le_refl _)
      have hs1 : s1.state.scalar = .absent := by
        rw [← hn, follows_scalar e c _ traj ht _ (le_refl _), h0, hs]
      obtain ⟨s1', h2, h3, h4, _⟩ := e.steps_close c b _ traj ht (by rw [h0]; exact hi.ids) n.toNat 0
        (by omega) sim (h0 ▸ close_refl b _)
      rw [h1] at h2; cases h2
      obtain ⟨c1, c2, _, _⟩ := copy_observe e.grid s1.state s1.store hs1
        (fun p hp => lt_of_lt_of_le (hi1.ids p hp) (by omega))
      have hclose : Close b s1 { s1 with store := (s1.state.copy e.grid s1.store).2 } :=
        ⟨rfl, rfl, fun id hid => (c2 id (by omega)).symm⟩
      cases h5 : e.outputs c products ns { s1 with store := (s1.state.copy e.grid s1.store).2 } with
      | error err => simp [h5] at h
      | ok r' =>
        obtain ⟨s2, h6⟩ := ih _ (hi1.close hclose) hs1 (by dsimp only; omega) _ h5
        obtain ⟨traj2, ht2, h02, _⟩ := e.follows_of_steps c _ _ _ h6
        obtain ⟨s3, h7, _⟩ := e.steps_close c b _ traj2 ht2
          (by rw [h02]; exact (hi1.close hclose).ids) (total ns) 0 (by omega) s1
          (h02 ▸ hclose.symm)
        refine ⟨s3, ?_⟩
        rw [total, Engine.steps_add, h1]
        exact h7

/-- Stops of sorted output steps. -/
theorem stops_diff (a : ℤ) (ha : 0 ≤ a) (os : List ℤ) (hs : (a :: os).IsChain (· ≤ ·)) :
    stops a.toNat (Engine.diff (a :: os)) = os.map Int.toNat ∧
      a.toNat + total (Engine.diff (a :: os)) = (os.getLastD a).toNat := by
  induction os generalizing a with
  | nil => simp [Engine.diff, stops, total]
  | cons b os ih =>
    rw [List.isChain_cons_cons] at hs
    have hab : a.toNat + (b - a).toNat = b.toNat := by omega
    obtain ⟨h1, h2⟩ := ih b (by omega) hs.2
    simp only [Engine.diff, stops, total, List.map_cons, hab]
    refine ⟨by rw [h1], ?_⟩
    rw [← Nat.add_assoc, hab, h2]
    cases os <;> rfl

end step
end Conmech
