import Verif.Props.Clock
/-!
C36 for problems with relaxation.
-/
namespace Conmech
open Spec

section
variable {K : Type} [Field K] [DecidableEq K] {V : Type}

/-- Times of the states returned by a run in displacements. -/
theorem outputs_time_displacement (e : Engine K) (products : List ℕ) (N : ℤ) (os : List ℤ)
    (hne : os ≠ []) (hso : SortedSteps os) (sim : Simulation K V) (hS : Sound products sim)
    (h0 : sim.state.time = sim.solver.currentTime) (rs : List (State K)) (sim' : Simulation K V)
    (h : e.outputs .displacement products (Engine.outputDiffs N os) sim = .ok (rs, sim')) :
    List.Forall₂ (fun (o : ℤ) r => r.time = sim.state.time + o * sim.solver.timeStep) os rs := by
  obtain ⟨o, os, rfl⟩ : ∃ o os', os = o :: os' := by
    cases os with
    | nil => exact absurd rfl hne
    | cons a b => exact ⟨a, b, rfl⟩
  obtain ⟨hst, htot⟩ := stops_diff 0 (le_refl _) (o :: os) hso
  have htot' : total (Engine.diff (0 :: o :: os)) = ((o :: os).getLastD 0).toNat := by
    simpa using htot
  obtain ⟨traj, ht, h1, hr⟩ := outputs_trajectory e .displacement products _ _ sim hS rs sim' h
  change Follows _ (total (Engine.diff (0 :: o :: os))) _ at ht
  change _ = (stops 0 (Engine.diff (0 :: o :: os))).map _ at hr
  rw [htot'] at ht
  have hst' : stops 0 (Engine.diff (0 :: o :: os)) = (o :: os).map Int.toNat := hst
  rw [hst', List.map_map] at hr
  have hsn : (traj 0).state.toSnapshot = sim.state.toSnapshot := by
    rw [h1]; exact injectAll_snapshot (fun id => (sim.store.get id).name) products sim.state
  have hso0 : (traj 0).solver = sim.solver := by rw [h1]; rfl
  have htime : (traj 0).state.time = sim.state.time := congrArg Snapshot.time hsn
  have key : ∀ (l : List ℤ) (rs : List (State K)), (∀ x ∈ l, x ∈ o :: os) →
      rs.map (observe sim'.store) =
        l.map (fun x : ℤ => observe (traj x.toNat).store (traj x.toNat).state) →
      List.Forall₂ (fun (o : ℤ) r => r.time = sim.state.time + o * sim.solver.timeStep) l rs := by
    intro l
    induction l with
    | nil =>
      intro rs _ hl
      cases rs with
      | nil => exact .nil
      | cons r rs => simp at hl
    | cons x l ih =>
      intro rs hm hl
      cases rs with
      | nil => simp at hl
      | cons r rs =>
        simp only [List.map_cons, List.cons.injEq] at hl
        refine .cons ?_ (ih rs (fun y hy => hm y (List.mem_cons_of_mem _ hy)) hl.2)
        have hx := hm x List.mem_cons_self
        have hx0 : 0 ≤ x := by
          have hpw := List.isChain_iff_pairwise.1 hso
          exact List.rel_of_pairwise_cons hpw hx
        have hxl := chain_getLast 0 (o :: os) hso x (List.mem_cons_of_mem _ hx)
        have h2 := (C36_displacement e _ traj ht (by rw [htime, hso0, h0]) x.toNat (by omega)).2.1
        have h3 : r.time = (traj x.toNat).state.time :=
          congrArg (fun p => p.1.time) hl.1
        rw [h3, h2, htime, hso0]
        congr 2
        exact_mod_cast congrArg (Int.cast : ℤ → K) (Int.toNat_of_nonneg hx0)
  exact key _ rs (fun x hx => hx) hr

/-- C36. Problems with relaxation: the states returned for the output steps carry these numbers of time steps
as their time. -/
theorem C36_relaxation (e : Engine K) (a : Engine.Arguments K) (hne : a.outputStep ≠ [])
    (hso : SortedSteps a.outputStep) (solver : SolverState K) (hc : solver.currentTime = 0)
    (store : ProductStore K V) (hp : ∀ id ∈ a.products, id < store.next)
    (hn : (a.products.map fun id => (store.get id).name).Nodup) (rs : List (State K))
    (sim : Simulation K V) (h : e.relaxationSolve a solver store = .ok (rs, sim)) :
    List.Forall₂ (fun (o : ℤ) r => r.time = o * solver.timeStep) a.outputStep rs := by
  rw [Engine.relaxationSolve_eq] at h
  cases hs : e.relaxationStart a solver store with
  | error err => simp [hs, Except.bind] at h
  | ok s0 =>
    rw [hs] at h
    obtain ⟨s, h1, rfl⟩ := ok_of_bind _ _ _ hs
    have hit := e.iterate_ok _ _ h1
    have := outputs_time_displacement e a.products a.nSteps a.outputStep hne hso _
      ⟨rfl, by simp [State.new], hp, hn⟩ (by rw [hit]; exact hc.symm) rs sim h
    refine this.imp fun o r hr => ?_
    rw [hr, hit]; simp [State.new]

end
end Conmech
