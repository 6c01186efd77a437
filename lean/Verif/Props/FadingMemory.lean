import Verif.Props.Relaxing
import Verif.Props.RelaxationClock
import Mathlib.Analysis.SpecialFunctions.Integrals.Basic
/-!
C115: relaxation tensors that depend on time.
-/
namespace Conmech
open Spec

section
variable {V : Type} {n : ℕ} {D : ℕ → Prop} {E : ℕ → ℕ → ℝ}

theorem act_smul (n : ℕ) (A : ℕ → ℕ → ℝ) (c : ℝ) (x : ℕ → ℝ) (r : ℕ) :
    act n A (fun i => c * x i) r = c * act n A x r := by
  simp only [act, Finset.mul_sum]
  exact Finset.sum_congr rfl fun s _ => by ring

theorem act_scaled (n : ℕ) (A : ℕ → ℕ → ℝ) (c : ℝ) (x : ℕ → ℝ) (r : ℕ) :
    act n (fun i j => c * A i j) x r = c * act n A x r := by
  simp only [act, Finset.mul_sum]
  exact Finset.sum_congr rfl fun s _ => by ring

theorem act_sub (n : ℕ) (A : ℕ → ℕ → ℝ) (x y : ℕ → ℝ) (r : ℕ) :
    act n A (fun i => x i - y i) r = act n A x r - act n A y r := by
  simp only [act, mul_sub, Finset.sum_sub_distrib]

/-- The displacement is determined by its elastic forces. -/
theorem act_injective (hdef : DefiniteOn n D E) {x y : ℕ → ℝ} (hx : Still n D x) (hy : Still n D y)
    (h : ∀ r < n, ¬ D r → act n E x r = act n E y r) : ∀ r < n, x r = y r := fun r hr => by
  refine sub_eq_zero.1 (hdef (fun i => x i - y i) (fun s hs hD => by
    beta_reduce
    rw [hx s hs hD, hy s hs hD, sub_zero]) ?_ r hr)
  rw [quad_eq_act]
  refine Finset.sum_eq_zero fun s hs => ?_
  have hs' := Finset.mem_range.1 hs
  by_cases hD : D s
  · rw [hx s hs' hD, hy s hs' hD, sub_zero, zero_mul]
  · rw [act_sub, h s hs' hD, sub_self, mul_zero]

/-- The integral of an exponential memory of `(1 + exp (-2 s)) / 2`. -/
theorem fading_integral (t : ℝ) :
    ∫ s in (0 : ℝ)..t, Real.exp (-(t - s)) * ((1 + Real.exp (-2 * s)) / 2) = (1 - Real.exp (-2 * t)) / 2 := by
  have hd : ∀ s ∈ Set.uIcc 0 t, HasDerivAt (fun s => Real.exp (-(t - s)) * ((1 - Real.exp (-2 * s)) / 2))
      (Real.exp (-(t - s)) * ((1 + Real.exp (-2 * s)) / 2)) s := fun s _ => by
    have h1 : HasDerivAt (fun s : ℝ => -(t - s)) 1 s := by
      have h := ((hasDerivAt_id s).const_sub t).neg
      rw [neg_neg] at h
      exact h
    have h2 : HasDerivAt (fun s : ℝ => -2 * s) (-2) s := by
      simpa using (hasDerivAt_id s).const_mul (-2 : ℝ)
    refine (h1.exp.mul ((h2.exp.const_sub 1).div_const 2)).congr_deriv ?_
    ring
  rw [intervalIntegral.integral_eq_sub_of_hasDerivAt hd (by
    apply Continuous.intervalIntegrable
    fun_prop)]
  simp

/-- A load `E x` that does not change: the history of displacements of a body with exponentially fading memory. -/
theorem fading_history (hdef : DefiniteOn n D E) {x : ℕ → ℝ} (hx : Still n D x) {f : ℝ → ℕ → ℝ}
    (hf : ∀ t, ∀ r < n, ¬ D r → f t r = act n E x r) (T : ℝ) :
    Fading n D E (fun t r s => Real.exp (-t) * E r s) f T (fun t r => (1 + Real.exp (-2 * t)) / 2 * x r) ∧
    ∀ u, Fading n D E (fun t r s => Real.exp (-t) * E r s) f T u → ∀ t ∈ Set.Icc 0 T, ∀ r < n,
      u t r = (1 + Real.exp (-2 * t)) / 2 * x r := by
  have hw : Fading n D E (fun t r s => Real.exp (-t) * E r s) f T (fun t r => (1 + Real.exp (-2 * t)) / 2 * x r) := by
    refine ⟨fun r _ => Continuous.continuousOn (by fun_prop), fun t _ r hr hD => by
      beta_reduce
      rw [hx r hr hD, mul_zero], fun t _ r hr hD => ?_⟩
    simp only [act_smul, act_scaled]
    rw [hf t r hr hD]
    have : (fun s => (1 + Real.exp (-2 * s)) / 2 * (Real.exp (-(t - s)) * act n E x r)) =
        fun s => Real.exp (-(t - s)) * ((1 + Real.exp (-2 * s)) / 2) * act n E x r := by funext s; ring
    rw [this, intervalIntegral.integral_mul_const, fading_integral]
    ring
  refine ⟨hw, fun u hu t ht => ?_⟩
  -- the difference of the forces
  have hzero : ∀ r < n, ¬ D r → ∀ t ∈ Set.Icc 0 T,
      act n E (u t) r = act n E (fun i => (1 + Real.exp (-2 * t)) / 2 * x i) r := by
    intro r hr hD
    set g : ℝ → ℝ := fun t => act n E (u t) r - act n E (fun i => (1 + Real.exp (-2 * t)) / 2 * x i) r with hg
    have hc1 : ContinuousOn (fun t => act n E (u t) r) (Set.Icc 0 T) :=
      continuousOn_finsetSum _ fun i hi => continuousOn_const.mul (hu.continuous i (Finset.mem_range.1 hi))
    have hc2 : ContinuousOn (fun t => act n E (fun i => (1 + Real.exp (-2 * t)) / 2 * x i) r) (Set.Icc 0 T) :=
      continuousOn_finsetSum _ fun i hi => continuousOn_const.mul (hw.continuous i (Finset.mem_range.1 hi))
    have hgc : ContinuousOn g (Set.Icc 0 T) := hc1.sub hc2
    have hec : ContinuousOn (fun s => Real.exp s * g s) (Set.Icc 0 T) := Real.continuous_exp.continuousOn.mul hgc
    have hsub : ∀ t ∈ Set.Icc 0 T, Set.uIcc 0 t ⊆ Set.Icc 0 T := fun t ht => by
      rw [Set.uIcc_of_le ht.1]; exact Set.Icc_subset_Icc_right ht.2
    have hbal : ∀ t ∈ Set.Icc 0 T, Real.exp t * g t + ∫ s in (0 : ℝ)..t, Real.exp s * g s = 0 := by
      intro t ht
      have h1 := hu.balanced t ht r hr hD
      have h2 := hw.balanced t ht r hr hD
      have e1 : ∀ v : ℝ → ℕ → ℝ, (∫ s in (0 : ℝ)..t, act n (fun i j => Real.exp (-(t - s)) * E i j) (v s) r) =
          Real.exp (-t) * ∫ s in (0 : ℝ)..t, Real.exp s * act n E (v s) r := fun v => by
        rw [← intervalIntegral.integral_const_mul]
        refine intervalIntegral.integral_congr fun s _ => ?_
        beta_reduce
        rw [act_scaled, show -(t - s) = -t + s by ring, Real.exp_add]
        ring
      rw [e1] at h1 h2
      have i1 : IntervalIntegrable (fun s => Real.exp s * act n E (u s) r) MeasureTheory.volume 0 t :=
        ((Real.continuous_exp.continuousOn.mul hc1).mono (hsub t ht)).intervalIntegrable
      have i2 : IntervalIntegrable (fun s => Real.exp s * act n E (fun i => (1 + Real.exp (-2 * s)) / 2 * x i) r)
          MeasureTheory.volume 0 t :=
        ((Real.continuous_exp.continuousOn.mul hc2).mono (hsub t ht)).intervalIntegrable
      have e2 : ∫ s in (0 : ℝ)..t, Real.exp s * g s = (∫ s in (0 : ℝ)..t, Real.exp s * act n E (u s) r) -
          ∫ s in (0 : ℝ)..t, Real.exp s * act n E (fun i => (1 + Real.exp (-2 * s)) / 2 * x i) r := by
        rw [← intervalIntegral.integral_sub i1 i2]
        exact intervalIntegral.integral_congr fun s _ => by simp only [hg]; ring
      have e3 : Real.exp t * Real.exp (-t) = 1 := by rw [← Real.exp_add, add_neg_cancel, Real.exp_zero]
      rw [e2]
      simp only [hg]
      linear_combination Real.exp t * (h1 - h2) - ((∫ s in (0 : ℝ)..t, Real.exp s * act n E (u s) r) -
          ∫ s in (0 : ℝ)..t, Real.exp s * act n E (fun i => (1 + Real.exp (-2 * s)) / 2 * x i) r) * e3
    have hG := integral_derivative hec 0
    have hfin := same_derivative (g := fun t => Real.exp t * (0 + ∫ s in (0 : ℝ)..t, Real.exp s * g s)) (h := fun _ => 0)
      (d := fun _ => 0) (fun t ht => by
        refine ((Real.hasDerivAt_exp t).hasDerivWithinAt.mul (hG t ht)).congr_deriv ?_
        have := hbal t ht
        linear_combination Real.exp t * this) (fun t ht => hasDerivWithinAt_const _ _ _) (by simp)
    intro t ht
    have h1 := hfin t ht
    have h2 := hbal t ht
    have h3 := (Real.exp_pos t).ne'
    rw [zero_add] at h1
    rcases mul_eq_zero.1 h1 with h4 | h4
    · exact absurd h4 h3
    · rw [h4, add_zero] at h2
      rcases mul_eq_zero.1 h2 with h5 | h5
      · exact absurd h5 h3
      · exact sub_eq_zero.1 h5
  exact act_injective hdef (hu.held t ht) (hw.held t ht) fun r hr hD => hzero r hr hD t ht

/-! ### Runs -/

/-- Supports that do not move: the load of the eliminated system does not depend on the matrix. -/
theorem applyDirichlet_still (N : ℕ) (bs : List (CondBoundary ℝ)) (D : ℕ → Prop) [DecidablePred D]
    (hv : ValidBoundaries N bs) (hd : DirichletData N 2 bs D fun _ => (0 : ℝ)) (A A' : ℕ → ℕ → ℝ) (b : ℕ → ℝ) :
    (applyDirichlet N 2 bs ⟨A, b⟩).rhs = (applyDirichlet N 2 bs ⟨A', b⟩).rhs := by
  funext r
  rw [(C14_all_at_once_partial N 2 bs ⟨A, b⟩ D (fun _ => 0) hv hd r).2,
    (C14_all_at_once_partial N 2 bs ⟨A', b⟩ D (fun _ => 0) hv hd r).2]
  simp

/-- A body without contact whose relaxation fades exponentially, with a load that does not change. -/
structure FadingSetting (e : Engine ℝ) (m : ContactSetting ℝ) (D : ℕ → Prop) (C : ℕ) (x : ℕ → ℝ) : Prop where
  cls : e.cls = .quasistaticRelaxedSchur
  kind : e.kind = .quasistaticRelaxation
  plane : e.ops.dimension = 2
  solve : ∃ minimise len, MinimiseContract minimise ∧
    e.solve = optimisedSolve minimise m e.kind e.ops e.boundaries len
  fading : ∀ t, e.ops.relaxation (some t) = .ok fun r s => Real.exp (-t) * e.ops.elasticity r s
  boundaries : ValidBoundaries e.ops.nodesCount e.boundaries
  held : DirichletData e.ops.nodesCount 2 e.boundaries D fun _ => 0
  contact : C ≤ e.ops.nodesCount
  free : m.surfaces = []
  sqrt : m.sqrt = Real.sqrt
  still : Still (2 * e.ops.nodesCount) D x
  load : ∀ t, ∀ r < 2 * e.ops.nodesCount, ¬ D r → e.ops.force t r = act (2 * e.ops.nodesCount) e.ops.elasticity x r

/-- What holds between the steps of a run. The condensed matrices are those of the beginning. -/
structure FadingBetween (inv : ℕ → (ℕ → ℕ → ℝ) → ℕ → ℕ → ℝ) (e : Engine ℝ) (C : ℕ) (x : ℕ → ℝ) (dt : ℝ)
    (solver : SolverState ℝ) (s : Snapshot ℝ) : Prop where
  absement : solver.bVector = State.flatten e.grid s.absement
  resting : solver.vVector = fun _ => 0
  time : s.time = solver.currentTime
  timeStep : solver.timeStep = dt
  later : 0 ≤ s.time
  condensed : solver.schur = some (SchurSolver.init inv e.ops.nodesCount C 2 false
    (applyDirichlet e.ops.nodesCount 2 e.boundaries ⟨fun r s => (1 + dt) * e.ops.elasticity r s,
      fun r => e.ops.force solver.currentTime r - Real.exp (-solver.currentTime) *
        matVec (2 * e.ops.nodesCount) e.ops.elasticity solver.bVector r⟩))
  along : ∃ β, 0 ≤ β ∧ β ≤ s.time ∧ ∀ r < 2 * e.ops.nodesCount, State.flatten e.grid s.absement r = β * x r

/-- `iterate` renews the load only. -/
theorem fading_iterate {e : Engine ℝ} {m : ContactSetting ℝ} {D : ℕ → Prop} [DecidablePred D] {C : ℕ} {x : ℕ → ℝ}
    (hset : FadingSetting e m D C x) (inv : ℕ → (ℕ → ℕ → ℝ) → ℕ → ℕ → ℝ) (dt : ℝ) (s s' : SolverState ℝ)
    (h : e.iterate s = .ok s') (b : ℕ → ℝ)
    (hs : s.schur = some (SchurSolver.init inv e.ops.nodesCount C 2 false
      (applyDirichlet e.ops.nodesCount 2 e.boundaries ⟨fun r s => (1 + dt) * e.ops.elasticity r s, b⟩))) :
    s'.schur = some (SchurSolver.init inv e.ops.nodesCount C 2 false
      (applyDirichlet e.ops.nodesCount 2 e.boundaries ⟨fun r s => (1 + dt) * e.ops.elasticity r s,
        fun r => e.ops.force s.currentTime r - Real.exp (-s.currentTime) *
          matVec (2 * e.ops.nodesCount) e.ops.elasticity s.bVector r⟩)) := by
  have hcur := iterate_current e (by rw [hset.cls, hset.kind]; exact relaxation_registered) (by rw [hset.cls]; nofun)
    (by rw [hset.kind]; exact ⟨nofun, nofun⟩) s s' h
  have hit := e.iterate_ok _ _ h
  have ht : s'.currentTime = s.currentTime := by rw [hit]
  have hb : s'.bVector = s.bVector := by rw [hit]
  obtain ⟨lhs, rhs, -, h2, h3⟩ := update_eliminated _ _ _ _ _ hcur
  rw [hset.kind] at h2 h3
  have hR := hset.fading s'.currentTime
  have hp := hset.plane
  simp only [updateRhs, currentVariables, hR, hp, required, bind, Except.bind, pure, Except.pure,
    Except.ok.injEq] at h2
  have h3 : s'.system = applyDirichlet e.ops.nodesCount 2 e.boundaries ⟨lhs, rhs⟩ := by rw [h3, hset.plane]; rfl
  have hrhs : rhs = fun r => e.ops.force s.currentTime r - Real.exp (-s.currentTime) *
          matVec (2 * e.ops.nodesCount) e.ops.elasticity s.bVector r := by
    rw [← h2, ht, hb]
    funext r
    congr 1
    simp only [matVec, Finset.mul_sum]
    exact Finset.sum_congr rfl fun s _ => by ring
  unfold Engine.iterate at h
  cases h1 : s.iterate e.cls e.kind e.ops e.boundaries with
  | error err => rw [h1] at h; cases h
  | ok s1 =>
    rw [h1] at h
    obtain rfl : s1 = s' := by simpa [liftStatement] using h
    unfold SolverState.iterate at h1
    rw [hset.cls] at h1
    simp only [SolverClass.iterateVariables] at h1
    obtain ⟨S, hS, h5⟩ := updateSystem_ok _ _ _ _ _ _ h1
    subst h5
    simp only [hs, Option.map_some]
    congr 1
    have h3 : S = applyDirichlet e.ops.nodesCount 2 e.boundaries ⟨lhs, rhs⟩ := h3
    simp only [SchurSolver.init, SchurSolver.recalculateForces]
    rw [h3, applyDirichlet_still _ _ D hset.boundaries hset.held lhs (fun r s => (1 + dt) * e.ops.elasticity r s), hrhs,
      applyDirichlet_lhs e.ops.nodesCount 2 e.boundaries ⟨fun r s => (1 + dt) * e.ops.elasticity r s, b⟩
        ⟨fun r s => (1 + dt) * e.ops.elasticity r s, fun r => e.ops.force s.currentTime r - Real.exp (-s.currentTime) *
          matVec (2 * e.ops.nodesCount) e.ops.elasticity s.bVector r⟩ rfl]

theorem exp_small (t : ℝ) (ht : 0 ≤ t) : t * Real.exp (-t) ≤ 1 := by
  have h := Real.add_one_le_exp t
  rw [Real.exp_neg, ← div_eq_mul_inv, div_le_one (Real.exp_pos t)]
  linarith

theorem exp_smaller (t : ℝ) (ht : 4 ≤ t) : t * Real.exp (-t) ≤ 1 / 8 := by
  have h := Real.sum_le_exp_of_nonneg (by linarith : 0 ≤ t) 5
  simp only [Finset.sum_range_succ, Finset.sum_range_zero, Nat.factorial] at h
  norm_num at h
  rw [Real.exp_neg, ← div_eq_mul_inv, div_le_iff₀ (Real.exp_pos t)]
  have h2 : 4 * t ≤ t ^ 2 := by nlinarith
  have h3 : 16 * t ≤ t ^ 3 := by nlinarith
  have h4 : 64 * t ≤ t ^ 4 := by nlinarith
  linarith

/-- A step of a run with fading relaxation. -/
theorem fading_step {e : Engine ℝ} {m : ContactSetting ℝ} {D : ℕ → Prop} [DecidablePred D] {C : ℕ} {x : ℕ → ℝ}
    (hset : FadingSetting e m D C x) (hE : StoresEnergy (2 * e.ops.nodesCount) e.ops.elasticity)
    (hdef : DefiniteOn (2 * e.ops.nodesCount) D e.ops.elasticity)
    (inv : ℕ → (ℕ → ℕ → ℝ) → ℕ → ℕ → ℝ) (hinv : InvContract inv) {dt : ℝ} (hdt : 0 < dt)
    (sim sim' : Simulation ℝ V) (hb : FadingBetween inv e C x dt sim.solver sim.state.toSnapshot)
    (h : e.step .displacement sim = .ok sim') :
    FadingBetween inv e C x dt sim'.solver sim'.state.toSnapshot ∧ sim'.state.time = sim.state.time + dt ∧
    ∃ c, (1 - sim.state.time * Real.exp (-sim.state.time)) / (1 + dt) ≤ c ∧
      ∀ r < 2 * e.ops.nodesCount, State.flatten e.grid sim'.state.displacement r = c * x r := by
  obtain ⟨d1, d2, d3, d4, -, d6, d7⟩ := displacement_step e sim sim' h
  obtain ⟨solver, h1, _, h3⟩ := (e.step_ok_iff _ _ _).1 h
  have hit := e.iterate_ok _ _ h3
  simp only [Engine.advance, Option.some.injEq, Prod.mk.injEq] at h1
  obtain ⟨hs, hv⟩ := h1
  subst hv
  have htime : sim'.state.time = sim.state.time + dt := by
    rw [d1, ← hb.timeStep, ← hb.time]
  have k1 := fading_iterate hset inv dt _ _ h3 _ hb.condensed
  have hvv : sim'.solver.vVector = sim.solver.vVector := by rw [hit]
  have habs : State.flatten e.grid sim'.state.absement = fun i => State.flatten e.grid sim.state.absement i +
      dt * State.flatten e.grid sim'.state.displacement i := by
    funext i
    simp only [State.flatten]
    rw [d4, htime]
    ring
  set t := sim.state.time with ht
  have ht0 : 0 ≤ t := hb.later
  obtain ⟨β, hβ0, hβt, hβ⟩ := hb.along
  have hE0 := Real.exp_pos (-t)
  have hβ1 : β * Real.exp (-t) ≤ t * Real.exp (-t) := mul_le_mul_of_nonneg_right hβt hE0.le
  have hsmall := exp_small t ht0
  have hd1 : 0 < 1 + dt := by linarith
  -- the solve
  obtain ⟨S, j1, j4, j5, j6⟩ : ∃ S : SolverState ℝ, S.schur = sim.solver.schur ∧
      S.vVector = sim.solver.vVector ∧ S.timeStep = sim.solver.timeStep ∧
      State.flatten e.grid sim'.state.displacement = e.solve S (State.flatten e.grid sim.state.displacement) := by
    refine ⟨{ sim.solver with currentTime := sim.solver.currentTime + sim.solver.timeStep }, rfl, rfl, rfl, ?_⟩
    rw [← hs]
    change State.flatten e.grid (State.unflatten e.grid _) = _
    rw [flatten_unflatten]
  obtain ⟨minimise, len, hm, hsolve⟩ := hset.solve
  have hkind : e.kind.dimensionIn 2 = 2 := by rw [hset.kind]; rfl
  set A : System ℝ := ⟨fun r s => (1 + dt) * e.ops.elasticity r s,
      fun r => e.ops.force sim.solver.currentTime r - Real.exp (-sim.solver.currentTime) *
        matVec (2 * e.ops.nodesCount) e.ops.elasticity sim.solver.bVector r⟩ with hA
  have hquad : ∀ y, quad (2 * e.ops.nodesCount) A.lhs y = (1 + dt) * quad (2 * e.ops.nodesCount) e.ops.elasticity y :=
    fun y => by
      simp only [quad_eq_act, hA]
      rw [Finset.mul_sum]
      exact Finset.sum_congr rfl fun r _ => by rw [act_scaled]; ring
  have p1 : ∀ r < 2 * e.ops.nodesCount, ∀ s < 2 * e.ops.nodesCount, A.lhs r s = A.lhs s r := fun r hr s hs => by
    simp only [hA]; rw [hE.symm r hr s hs]
  have p2 : ∀ y : ℕ → ℝ, (∀ r < 2 * e.ops.nodesCount, D r → y r = 0) → (∃ r < 2 * e.ops.nodesCount, y r ≠ 0) →
      0 < quad (2 * e.ops.nodesCount) A.lhs y := fun y hy hne => by
    rw [hquad]
    refine mul_pos hd1 (lt_of_le_of_ne (hE.nonneg y) fun h0 => ?_)
    obtain ⟨r, hr, hyr⟩ := hne
    exact hyr (hdef y hy h0.symm r hr)
  have key := C111_solve inv hinv minimise hm m hset.sqrt e.kind e.ops hset.plane hkind e.boundaries D (fun _ => 0)
    hset.boundaries hset.held C hset.contact (fun s hs => by rw [hset.free] at hs; cases hs)
    { S with system := applyDirichlet e.ops.nodesCount 2 e.boundaries A } (fun s hs => by rw [hset.free] at hs; cases hs)
    ⟨by change S.schur = _; rw [j1]; exact hb.condensed, fun s hs => by rw [hset.free] at hs; cases hs⟩ A rfl
    p1 p2 len (State.flatten e.grid sim.state.displacement)
  have hsame : optimisedSolve minimise m e.kind e.ops e.boundaries len
      { S with system := applyDirichlet e.ops.nodesCount 2 e.boundaries A } (State.flatten e.grid sim.state.displacement) =
      e.solve S (State.flatten e.grid sim.state.displacement) := by
    rw [hsolve]
    have hsch : S.schur = some _ := j1.trans hb.condensed
    have himpl : optimisedImpl minimise m e.kind e.ops len
        { S with system := applyDirichlet e.ops.nodesCount 2 e.boundaries A } =
        optimisedImpl minimise m e.kind e.ops len S := by
      funext g
      unfold optimisedImpl
      simp only [hsch]
      rfl
    unfold optimisedSolve
    rw [himpl]
  rw [hsame, ← j6, contactArguments_eq _ _ _ hset.plane hkind, hset.sqrt, hset.free] at key
  have hcost : ∀ (τ : ℝ) (u v y : ℕ → ℝ), costFunctional Real.sqrt m.conditions
      (contactOf e.ops.nodesCount m.nodes [] τ u v) (2 * e.ops.nodesCount) A.lhs A.rhs
      ⟨2 * e.ops.nodesCount, y⟩ = energy (2 * e.ops.nodesCount) A y + 0 := fun τ u v y => by
    rw [C48_energy, contactCostFunctional_eq]
    simp [contactOf]
  have hmin : MinimisesWith (2 * e.ops.nodesCount) D A (fun _ => 0) (State.flatten e.grid sim'.state.displacement) :=
    ⟨key.1, fun y hy => by
      have := key.2 y hy
      beta_reduce at this
      rw [hcost, hcost] at this
      exact this⟩
  set w := State.flatten e.grid sim'.state.displacement with hw
  set c := (1 - β * Real.exp (-t)) / (1 + dt) with hc
  have hres : ∀ r < 2 * e.ops.nodesCount, ¬ D r →
      ∑ s ∈ Finset.range (2 * e.ops.nodesCount), A.lhs r s * w s - A.rhs r = 0 := by
    intro r hr hD
    have hvar := held_variational _ D A p1 _ (fun _ _ _ _ _ _ _ => by simp) w hmin
    have q1 := hvar (fun i => w i + if i = r then 1 else 0) (fun s hs hDs => by
      have : s ≠ r := fun h => hD (h ▸ hDs)
      simp [this, key.1 s hs hDs])
    have q2 := hvar (fun i => w i - if i = r then 1 else 0) (fun s hs hDs => by
      have : s ≠ r := fun h => hD (h ▸ hDs)
      simp [this, key.1 s hs hDs])
    simp [hr] at q1 q2
    linarith
  have hwx : ∀ r < 2 * e.ops.nodesCount, w r = c * x r := by
    refine act_injective hdef key.1 (fun r hr hD => by
      beta_reduce
      rw [hset.still r hr hD, mul_zero]) fun r hr hD => ?_
    have h4 := hres r hr hD
    have h5 : ∑ s ∈ Finset.range (2 * e.ops.nodesCount), A.lhs r s * w s =
        (1 + dt) * act (2 * e.ops.nodesCount) e.ops.elasticity w r := by
      rw [← act_scaled]; rfl
    have h6 : A.rhs r = (1 - β * Real.exp (-t)) * act (2 * e.ops.nodesCount) e.ops.elasticity x r := by
      simp only [hA]
      rw [hset.load _ r hr hD, ← hb.time, hb.absement]
      have : matVec (2 * e.ops.nodesCount) e.ops.elasticity (State.flatten e.grid sim.state.toSnapshot.absement) r =
          β * act (2 * e.ops.nodesCount) e.ops.elasticity x r := by
        rw [← act_smul]
        exact act_same (M := e.ops.elasticity) hβ r
      rw [this]
      change _ - Real.exp (-t) * _ = _
      ring
    rw [h5, h6] at h4
    rw [act_smul, hc, div_mul_eq_mul_div, eq_div_iff hd1.ne']
    linarith
  have hc0 : 0 ≤ c := div_nonneg (by linarith) hd1.le
  have hc1 : c ≤ 1 := by
    rw [hc, div_le_one hd1]
    have : 0 ≤ β * Real.exp (-t) := by positivity
    linarith
  refine ⟨⟨d7, hvv.trans hb.resting, d1.trans d2.symm, d3.trans hb.timeStep, ?_, ?_, β + dt * c, by positivity, ?_, ?_⟩,
    htime, c, div_le_div_of_nonneg_right (by linarith) hd1.le, hwx⟩
  · change 0 ≤ sim'.state.time
    rw [htime]; linarith
  · rw [k1]
    have e1 : sim'.solver.currentTime = sim.solver.currentTime + sim.solver.timeStep := d2
    have e2 : sim'.solver.bVector = State.flatten e.grid sim'.state.absement := d7
    rw [e1, e2, ← hs]
  · change _ ≤ sim'.state.time
    rw [htime]
    have : dt * c ≤ dt * 1 := mul_le_mul_of_nonneg_left hc1 hdt.le
    change β ≤ t at hβt
    linarith
  · intro r hr
    change State.flatten e.grid sim'.state.absement r = _
    rw [habs]
    have := hβ r hr
    change State.flatten e.grid sim.state.absement r + dt * w r = _
    rw [hwx r hr, show State.flatten e.grid sim.state.absement r = β * x r from this]
    ring

/-- C115 (the code does not do this). A relaxation tensor that fades exponentially with time: under a constant
load the history of displacements goes down to half of the elastic displacement `x`. The states returned by
`solve` go back to `x` instead: the tensor of the present time is applied to the whole past. -/
theorem C115_memory_wrong {e : Engine ℝ} {m : ContactSetting ℝ} {D : ℕ → Prop} [DecidablePred D] {C : ℕ} {x : ℕ → ℝ}
    (hset : FadingSetting e m D C x) (hE : StoresEnergy (2 * e.ops.nodesCount) e.ops.elasticity)
    (hdef : DefiniteOn (2 * e.ops.nodesCount) D e.ops.elasticity) :
    (∀ T, ∃ u, Fading (2 * e.ops.nodesCount) D e.ops.elasticity (fun t r s => Real.exp (-t) * e.ops.elasticity r s)
      e.ops.force T u) ∧
    (∀ T u, Fading (2 * e.ops.nodesCount) D e.ops.elasticity (fun t r s => Real.exp (-t) * e.ops.elasticity r s)
      e.ops.force T u → ∀ t ∈ Set.Icc 0 T, 5 ≤ t → ∃ c ≤ (51 / 100 : ℝ), ∀ r < 2 * e.ops.nodesCount, u t r = c * x r) ∧
    ∀ (inv : ℕ → (ℕ → ℕ → ℝ) → ℕ → ℕ → ℝ) (dt : ℝ) (a : Engine.Arguments ℝ) (solver : SolverState ℝ)
      (store : ProductStore ℝ V) (rs : List (State ℝ)) (sim : Simulation ℝ V), InvContract inv → 0 < dt → dt ≤ 1 / 10 →
      a.initialAbsement = (fun _ _ => 0) → solverInit inv e.cls e.kind e.ops e.boundaries C false dt = .ok solver →
      e.relaxationSolve a solver store = .ok (rs, sim) → ∀ s ∈ rs, 5 ≤ s.time →
        ∃ c ≥ (3 / 4 : ℝ), ∀ r < 2 * e.ops.nodesCount, State.flatten e.grid s.displacement r = c * x r := by
  refine ⟨fun T => ⟨_, (fading_history hdef hset.still hset.load T).1⟩, fun T u hu t ht h5 =>
    ⟨_, ?_, (fading_history hdef hset.still hset.load T).2 u hu t ht⟩, ?_⟩
  · have h1 := exp_smaller t (by linarith)
    have h2 : Real.exp (-2 * t) = Real.exp (-t) * Real.exp (-t) := by rw [← Real.exp_add]; ring_nf
    have h0 := Real.exp_pos (-t)
    have h3 : Real.exp (-t) ≤ 1 / 40 := by nlinarith
    rw [h2]
    nlinarith
  intro inv dt a solver store rs sim hinv hdt hdt1 ha hi h s hmem h5
  rw [Engine.relaxationSolve_eq] at h
  cases hs0 : e.relaxationStart a solver store with
  | error err => simp [hs0, Except.bind] at h
  | ok s0 =>
    rw [hs0] at h
    have hstart : FadingBetween inv e C x dt s0.solver s0.state.toSnapshot ∧ s0.state.time = 0 := by
      unfold solverInit at hi
      obtain ⟨S, hS, hi⟩ := ok_of_bind _ _ _ hi
      cases hi
      obtain ⟨s, h1, rfl⟩ := ok_of_bind _ _ _ hs0
      have hit := e.iterate_ok _ _ h1
      obtain ⟨lhs, rhs, q1, q2, q3⟩ := update_eliminated _ _ _ _ _ hS
      rw [hset.kind] at q1 q3
      have hR := hset.fading 0
      simp only [updateLhs, hR, required, bind, Except.bind, pure, Except.pure, Except.ok.injEq] at q1
      have q4 : lhs = fun r s => (1 + dt) * e.ops.elasticity r s := by
        rw [← q1]
        funext r s
        simp
        ring
      have k1 := fading_iterate hset inv dt _ _ h1 rhs (by
        rw [q4, hset.plane] at q3
        simp only [hset.cls, hset.kind, hset.plane, SolverClass.isSchur, StatementKind.dimensionIn, if_true]
        rw [q3]
        rfl)
      refine ⟨⟨by rw [hit], by rw [hit], by rw [hit]; rfl, by rw [hit], le_rfl, ?_, 0, le_rfl, le_rfl, ?_⟩, rfl⟩
      · rw [k1, hit]
      · intro r _
        change State.flatten e.grid a.initialAbsement r = _
        rw [ha]
        simp [State.flatten]
    let Good : Snapshot ℝ → Prop := fun s => 5 ≤ s.time →
        ∃ c ≥ (3 / 4 : ℝ), ∀ r < 2 * e.ops.nodesCount, State.flatten e.grid s.displacement r = c * x r
    have := (outputs_relation e .displacement a.products (FadingBetween inv e C x dt) (fun s s' => s' = s ∨ Good s')
      (fun _ => Or.inl rfl) (fun a b c h1 h2 => by
        rcases h2 with h2 | h2
        · rw [h2]; exact h1
        · exact Or.inr h2) (fun sim sim' hb hstep => by
        obtain ⟨k1, k2, c, k3, k4⟩ := fading_step hset hE hdef inv hinv hdt sim sim' hb hstep
        refine ⟨k1, Or.inr fun h6 => ⟨c, le_trans ?_ k3, k4⟩⟩
        change 5 ≤ sim'.state.time at h6
        rw [k2] at h6
        have h7 := exp_smaller sim.state.time (by linarith)
        rw [le_div_iff₀ (by linarith)]
        linarith) _ _ _ _ hstart.1 h).2.2
    rcases (List.pairwise_cons.1 this).1 s.toSnapshot (List.mem_map_of_mem hmem) with h8 | h8
    · have : s.time = s0.state.time := congrArg Snapshot.time h8
      rw [hstart.2] at this
      linarith
    · exact h8 h5

/-- The corner of the square moved to the right. -/
def movedCorner : ℕ → ℝ := fun r => if r = 0 then 1 else 0

/-- The square with fading relaxation and the load that moves the corner. -/
noncomputable def fadingSquareOps : Operators ℝ :=
  { heldSquareOps with
    relaxation := fun t => .ok fun r s => Real.exp (-(t.getD 0)) * heldSquareOps.elasticity r s
    force := fun _ => act 8 heldSquareOps.elasticity movedCorner }

/-- The hypotheses of `C115_memory_wrong` are met by the square, and a run returns a state at time 6 whose corner
has moved by at least 3/4. -/
example (store : ProductStore ℝ V) : ∃ (e : Engine ℝ) (m : ContactSetting ℝ) (solver : SolverState ℝ)
    (rs : List (State ℝ)) (sim : Simulation ℝ V) (s : State ℝ),
    FadingSetting e m (fun r => r < 2 * 4 ∧ 2 ≤ r % 4) 2 movedCorner ∧ e.ops = fadingSquareOps ∧
    e.relaxationSolve ⟨60, [60], fun _ _ => 0, fun _ _ => 0, fun _ _ => 0, []⟩ solver store = .ok (rs, sim) ∧
    s ∈ rs ∧ s.time = 6 ∧ 3 / 4 ≤ State.flatten e.grid s.displacement 0 := by
  obtain ⟨⟨inv, hinv⟩, ⟨minimise, hm⟩⟩ := contracts_met
  let m : ContactSetting ℝ := ⟨Real.sqrt, frictionless (slopePotential 10), heldSquareNodes, []⟩
  let e : Engine ℝ :=
    { grid := ⟨4, 2, heldSquareNodes⟩, cls := .quasistaticRelaxedSchur, kind := .quasistaticRelaxation
      ops := fadingSquareOps, boundaries := heldSquareBoundaries
      solve := optimisedSolve minimise m .quasistaticRelaxation fadingSquareOps heldSquareBoundaries 8 }
  have hset : FadingSetting e m (fun r => r < 2 * 4 ∧ 2 ≤ r % 4) 2 movedCorner :=
    { cls := rfl, kind := rfl, plane := rfl, solve := ⟨minimise, 8, hm, rfl⟩, fading := fun _ => rfl
      boundaries := heldSquare_boundaries.1, held := heldSquare_boundaries.2
      contact := by change 2 ≤ 4; norm_num
      free := rfl, sqrt := rfl
      still := fun r _ hD => by
        have : r ≠ 0 := by rintro rfl; omega
        simp [movedCorner, this]
      load := fun _ _ _ _ => rfl }
  obtain ⟨-, o2, -, -, -⟩ := C71_operators2 heldSquare_mesh.1 heldSquare_mesh.2 0 4 5 4 5 0 le_rfl (by norm_num)
    (by norm_num) (by norm_num) (by norm_num)
  have hdef := C74_elastic2 heldSquare_mesh.1 heldSquare_mesh.2 4 5 (by norm_num) (by norm_num)
    (fun r => r < 2 * 4 ∧ 2 ≤ r % 4) heldSquare_held
  obtain ⟨-, -, hruns⟩ := C115_memory_wrong (V := V) hset o2 hdef
  obtain ⟨solver, hi⟩ : ∃ solver, solverInit inv e.cls e.kind e.ops e.boundaries 2 false (1 / 10) = .ok solver :=
    ⟨_, rfl⟩
  obtain ⟨rs, sim, h⟩ := C115_runs e rfl rfl (fun _ => ⟨_, rfl⟩)
    ⟨60, [60], fun _ _ => 0, fun _ _ => 0, fun _ _ => 0, []⟩ rfl solver store
  have hsolver : solver.currentTime = 0 ∧ solver.timeStep = 1 / 10 := by
    unfold solverInit at hi
    obtain ⟨S, -, hi⟩ := ok_of_bind _ _ _ hi
    cases hi
    exact ⟨rfl, rfl⟩
  have htimes := C36_relaxation e ⟨60, [60], fun _ _ => 0, fun _ _ => 0, fun _ _ => 0, []⟩ (by simp)
    (by simp [SortedSteps]) solver hsolver.1 store (by simp) (by simp) rs sim h
  obtain ⟨s, rs', hs, hs', hrs⟩ := List.forall₂_cons_left_iff.1 htimes
  have ht : s.time = 6 := by rw [hs, hsolver.2]; norm_num
  have hmem : s ∈ rs := by rw [hrs]; exact List.mem_cons_self
  obtain ⟨c, hc, hc'⟩ := hruns inv (1 / 10) _ solver store rs sim hinv (by norm_num) le_rfl rfl hi h s hmem
    (by rw [ht]; norm_num)
  refine ⟨e, m, solver, rs, sim, s, hset, rfl, h, hmem, ht, ?_⟩
  rw [hc' 0 (by change 0 < 2 * 4; norm_num)]
  simpa [movedCorner] using hc

end
end Conmech
