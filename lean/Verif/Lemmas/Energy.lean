import Verif.Spec.Energy
import Verif.Lemmas.Quadratic
import Verif.Lemmas.Forms
import Verif.Lemmas.Running
import Verif.Props.Statement
import Verif.Props.Forcing
import Verif.Props.MassStiffness
import Verif.Props.Elasticity
/-!
Energy of one implicit Euler step, and quantities that do not grow during a run.
-/
namespace Conmech
open Spec

section
variable {K : Type _} [Field K]

theorem quad_eq_form (n : ℕ) (A : ℕ → ℕ → K) (x : ℕ → K) : quad n A x = form n n A x x := by
  unfold quad form
  refine Finset.sum_congr rfl fun r _ => ?_
  rw [Finset.mul_sum]
  exact Finset.sum_congr rfl fun s _ => by ring

theorem bilin_eq_act (n : ℕ) (A : ℕ → ℕ → K) (x y : ℕ → K) :
    ∑ r ∈ Finset.range n, x r * act n A y r = bilin n A x y := rfl

theorem bilin_sub_right (n : ℕ) (A : ℕ → ℕ → K) (x y y' : ℕ → K) :
    bilin n A x (fun i => y i - y' i) = bilin n A x y - bilin n A x y' := by
  have : (fun i => y i - y' i) = fun i => y i + (-1) * y' i := by funext i; ring
  rw [this, bilin_add_right, bilin_smul_right]; ring

theorem bilin_sub_left (n : ℕ) (A : ℕ → ℕ → K) (x x' y : ℕ → K) :
    bilin n A (fun i => x i - x' i) y = bilin n A x y - bilin n A x' y := by
  have : (fun i => x i - x' i) = fun i => x i + (-1) * x' i := by funext i; ring
  rw [this, bilin_add_left, bilin_smul_left]; ring

/-- The polarisation used for implicit steps: `(x - y)ᵀAx = ½(|x|² - |y|² + |x - y|²)`. -/
theorem bilin_implicit (n : ℕ) (A : ℕ → ℕ → K) (hA : ∀ r < n, ∀ s < n, A r s = A s r)
    (x y : ℕ → K) (h2 : (2 : K) ≠ 0) :
    bilin n A (fun i => x i - y i) x =
      1 / 2 * (quad n A x - quad n A y + quad n A (fun i => x i - y i)) := by
  simp only [quad_eq_bilin, bilin_sub_left, bilin_sub_right, bilin_symm n A hA y x]
  field_simp
  ring

/-- The balance of one step: `w` is the new velocity. -/
theorem energy_balance (n : ℕ) (M A B : ℕ → ℕ → K) (hM : ∀ r < n, ∀ s < n, M r s = M s r)
    (hB : ∀ r < n, ∀ s < n, B r s = B s r) (f u v w : ℕ → K) (dt : K) (hdt : dt ≠ 0)
    (h2 : (2 : K) ≠ 0) :
    mechanicalEnergy n M B f (fun i => u i + dt * w i) w =
      mechanicalEnergy n M B f u v +
      dt * (∑ r ∈ Finset.range n, w r * (act n M (fun i => (w i - v i) / dt) r + act n A w r +
        act n B (fun i => u i + dt * w i) r - f r)) -
      (1 / 2 * quad n M (fun i => w i - v i) + dt * quad n A w + dt ^ 2 / 2 * quad n B w) := by
  have e1 : ∑ r ∈ Finset.range n, w r * (act n M (fun i => (w i - v i) / dt) r + act n A w r +
        act n B (fun i => u i + dt * w i) r - f r) =
      bilin n M w (fun i => (w i - v i) / dt) + bilin n A w w +
        bilin n B w (fun i => u i + dt * w i) - ∑ r ∈ Finset.range n, f r * w r := by
    rw [← bilin_eq_act, ← bilin_eq_act, ← bilin_eq_act, ← Finset.sum_add_distrib,
      ← Finset.sum_add_distrib, ← Finset.sum_sub_distrib]
    exact Finset.sum_congr rfl fun r _ => by ring
  have e2 : (fun i => (w i - v i) / dt) = fun i => (1 / dt) * (w i - v i) := by funext i; ring
  have e3 : ∑ r ∈ Finset.range n, f r * (u r + dt * w r) =
      ∑ r ∈ Finset.range n, f r * u r + dt * ∑ r ∈ Finset.range n, f r * w r := by
    rw [Finset.mul_sum, ← Finset.sum_add_distrib]
    exact Finset.sum_congr rfl fun r _ => by ring
  rw [e1, e2]
  simp only [mechanicalEnergy, e3, quad_eq_bilin, bilin_add_left, bilin_add_right, bilin_smul_left,
    bilin_smul_right, bilin_sub_left, bilin_sub_right, bilin_symm n M hM v w, bilin_symm n B hB w u]
  field_simp
  ring

end

section
variable {K : Type} [Field K] [LinearOrder K] [IsStrictOrderedRing K]

/-- One step loses at least the viscous dissipation. -/
theorem energy_decreases (n : ℕ) (M A B : ℕ → ℕ → K) (hM : StoresEnergy n M) (hA : Dissipates n A)
    (hB : StoresEnergy n B) (f u v w : ℕ → K) (dt : K) (hdt : 0 < dt)
    (h : ∑ r ∈ Finset.range n, w r * (act n M (fun i => (w i - v i) / dt) r + act n A w r +
        act n B (fun i => u i + dt * w i) r - f r) ≤ 0) :
    mechanicalEnergy n M B f (fun i => u i + dt * w i) w + dt * quad n A w ≤
      mechanicalEnergy n M B f u v := by
  rw [energy_balance n M A B hM.symm hB.symm f u v w dt hdt.ne' two_ne_zero]
  have h1 := hM.nonneg fun i => w i - v i
  have h3 := hB.nonneg w
  have h4 : dt * (∑ r ∈ Finset.range n, w r * (act n M (fun i => (w i - v i) / dt) r + act n A w r +
        act n B (fun i => u i + dt * w i) r - f r)) ≤ 0 := mul_nonpos_of_nonneg_of_nonpos hdt.le h
  have h5 : 0 ≤ dt ^ 2 / 2 * quad n B w := by positivity
  linarith

/-- For zero prescribed values the elimination does not change the work of the residual. The
system may have more unknowns than those of the `dim` coordinates. -/
theorem passive_elimination_size (n N dim : ℕ) (bs : List (CondBoundary K)) (S : System K)
    (D : ℕ → Prop) [DecidablePred D] (hv : ValidBoundaries N bs)
    (hd : DirichletData N dim bs D fun _ => 0) (x : ℕ → K) (hx : ∀ r < n, D r → x r = 0) :
    Passive n (applyDirichlet N dim bs S) x ↔ Passive n S x := by
  have hc := C14_all_at_once_partial N dim bs S D (fun _ => (0 : K)) hv hd
  unfold Passive
  have : ∑ r ∈ Finset.range n, x r * (∑ s ∈ Finset.range n,
        (applyDirichlet N dim bs S).lhs r s * x s - (applyDirichlet N dim bs S).rhs r) =
      ∑ r ∈ Finset.range n, x r * (∑ s ∈ Finset.range n,
        S.lhs r s * x s - S.rhs r) := by
    refine Finset.sum_congr rfl fun r hr => ?_
    by_cases hD : D r
    · rw [hx r (Finset.mem_range.1 hr) hD]; ring
    · congr 1
      rw [(hc r).2, if_neg hD]
      have e1 : ∑ s ∈ Finset.range n, (applyDirichlet N dim bs S).lhs r s * x s =
          ∑ s ∈ Finset.range n, S.lhs r s * x s := by
        refine Finset.sum_congr rfl fun s hs => ?_
        rw [(hc r).1 s]
        by_cases hs' : D s
        · rw [hx s (Finset.mem_range.1 hs) hs']; ring
        · rw [if_neg (by tauto)]
      rw [e1]
      simp
  rw [this]

/-- The same for systems of `dim` coordinates. -/
theorem passive_elimination (N dim : ℕ) (bs : List (CondBoundary K)) (S : System K)
    (D : ℕ → Prop) [DecidablePred D] (hv : ValidBoundaries N bs)
    (hd : DirichletData N dim bs D fun _ => 0) (x : ℕ → K) (hx : ∀ r < dim * N, D r → x r = 0) :
    Passive (dim * N) (applyDirichlet N dim bs S) x ↔ Passive (dim * N) S x :=
  passive_elimination_size _ N dim bs S D hv hd x hx

omit [LinearOrder K] [IsStrictOrderedRing K] in
/-- For zero prescribed values the system after the elimination consists of these values and the other
rows, also if it has more unknowns than those of the `dim` coordinates. -/
theorem elimination_size (n N dim : ℕ) (bs : List (CondBoundary K)) (S : System K) (D : ℕ → Prop)
    [DecidablePred D] (hv : ValidBoundaries N bs) (hd : DirichletData N dim bs D fun _ => 0) (x : ℕ → K)
    (h : Solves n (applyDirichlet N dim bs S) x) :
    (∀ r < n, D r → x r = 0) ∧ ∀ r < n, ¬ D r → Row n S x r := by
  have hc := C14_all_at_once_partial N dim bs S D (fun _ => (0 : K)) hv hd
  have hz : ∀ r < n, D r → x r = 0 := by
    intro r hr hD
    have := h r hr
    unfold Row at this
    rw [(hc r).2, if_pos hD, Finset.sum_eq_single r] at this
    · rw [(hc r).1 r] at this; simpa [hD] using this
    · intro s _ hs; rw [(hc r).1 s]; simp [hD, hs.symm]
    · intro h; exact absurd (Finset.mem_range.2 hr) h
  refine ⟨hz, fun r hr hD => ?_⟩
  have := h r hr
  unfold Row at this ⊢
  rw [(hc r).2, if_neg hD] at this
  simp only [mul_zero, ite_self, Finset.sum_const_zero, sub_zero] at this
  rw [← this]
  refine Finset.sum_congr rfl fun s hs => ?_
  rw [(hc r).1 s]
  by_cases hs' : D s
  · rw [hz s (Finset.mem_range.1 hs) hs']; ring
  · rw [if_neg (by tauto)]

omit [IsStrictOrderedRing K] in
/-- Exact solutions are passive. -/
theorem passive_of_solves (n : ℕ) (S : System K) (x : ℕ → K) (h : Solves n S x) : Passive n S x := by
  unfold Passive
  refine le_of_eq (Finset.sum_eq_zero fun r hr => ?_)
  have := h r (Finset.mem_range.1 hr)
  unfold Row at this
  rw [this]; ring

/-- Minimisers of an energy with a cost that grows with the speed are passive. -/
theorem passive_of_minimises (n : ℕ) (S : System K) (D : ℕ → Prop)
    (hA : ∀ r < n, ∀ s < n, S.lhs r s = S.lhs s r) (J : (ℕ → K) → K) (hJ : GrowsWithSpeed J)
    (x : ℕ → K) (hx : MinimisesWith n D S J x) : Passive n S x := by
  unfold Passive
  by_contra hneg
  have hneg := not_le.1 hneg
  set a := ∑ r ∈ Finset.range n, x r * (∑ s ∈ Finset.range n, S.lhs r s * x s - S.rhs r) with ha
  set q := quad n S.lhs x with hq
  -- slow down by a factor `1 - t`
  have key : ∀ t, 0 ≤ t → t ≤ 1 → t * a ≤ t ^ 2 * (1 / 2 * q) := by
    intro t h0 h1
    have hm := hx.2 (fun i => (1 - t) * x i) fun r hr hD => by rw [hx.1 r hr hD, mul_zero]
    have hj := hJ x (1 - t) (by linarith) (by linarith)
    have e := energy_expand n S hA x (fun i => (-t) * x i)
    have e1 : (fun i => x i + (-t) * x i) = fun i => (1 - t) * x i := by funext i; ring
    have e2 : ∑ r ∈ Finset.range n, (-t) * x r * (∑ s ∈ Finset.range n, S.lhs r s * x s - S.rhs r) =
        -t * a := by
      rw [ha, Finset.mul_sum]; exact Finset.sum_congr rfl fun r _ => by ring
    have e3 : quad n S.lhs (fun i => (-t) * x i) = t ^ 2 * q := by
      rw [hq, quad_eq_bilin, quad_eq_bilin, bilin_smul_left, bilin_smul_right]; ring
    rw [e1, e2, e3] at e
    linarith
  rcases le_or_gt q 0 with hq0 | hq0
  · have := key 1 (by norm_num) le_rfl
    nlinarith
  · have h1 := key 1 (by norm_num) le_rfl
    have hlt : a / q ≤ 1 := by rw [div_le_one hq0]; nlinarith
    have h2 := key (a / q) (by positivity) hlt
    have h3 : a / q * a = (a / q) ^ 2 * q := by field_simp
    have h4 : 0 < a / q * a := by positivity
    nlinarith

end

/-! ### Runs -/

section runs
variable {K : Type} [Field K] [DecidableEq K] {V : Type}

/-- A simulation in velocities between two steps. -/
structure Between (e : Engine K) (dt : K) (solver : SolverState K) (s : Snapshot K) : Prop where
  iterated : ∃ x, e.iterate x = .ok solver
  displacement : solver.uVector = State.flatten e.grid s.displacement
  velocity : solver.vVector = State.flatten e.grid s.velocity
  time : s.time = solver.currentTime
  timeStep : solver.timeStep = dt

/-- One step in velocities: the system that is solved, and the new state. -/
theorem between_step {c : ProblemClass} (e : Engine K) (hr : Registered c e.cls e.kind)
    (hne : e.cls ≠ .direct) (hst : e.kind ≠ .staticDisplacement ∧ e.kind ≠ .staticPoisson)
    (dt : K) (sim sim' : Simulation K V) (hb : Between e dt sim.solver sim.state.toSnapshot)
    (h : e.step .velocity sim = .ok sim') :
    Between e dt sim'.solver sim'.state.toSnapshot ∧
    (∀ i j, sim'.state.displacement i j =
      sim.state.displacement i j + dt * sim'.state.velocity i j) ∧
    ∃ (S : SolverState K) (guess : ℕ → K),
      e.kind.update e.ops e.boundaries
        { absement := some sim.solver.bVector
          displacement := some (State.flatten e.grid sim.state.displacement)
          velocity := some (State.flatten e.grid sim.state.velocity)
          temperature := some sim.solver.tVector
          electricPotential := some sim.solver.pVector
          timeStep := some dt
          time := some sim.solver.currentTime } = .ok S.system ∧
      sim'.state.velocity = State.unflatten e.grid (e.solve S guess) := by
  have hf : Follows (e.step .velocity) 1 (fun k => if k = 0 then sim else sim') := by
    intro k hk
    obtain rfl : k = 0 := by omega
    exact h
  obtain ⟨S, h1, h2⟩ := C60_velocity_partial e hr hne hst 1 _ hf ⟨hb.iterated, hb.displacement⟩
    hb.velocity 0 (by omega)
  obtain ⟨s1, s2, s3, s4, _, s6, s7, _⟩ := velocity_step e _ _ h
  simp only [reduceIte, Nat.cast_zero, zero_mul, add_zero, hb.timeStep] at h1
  refine ⟨⟨?_, s6, s7, s1.trans s2.symm, s3.trans hb.timeStep⟩, fun i j => ?_, S, _, h1, h2⟩
  · obtain ⟨solver, _, _, h3⟩ := (e.step_ok_iff _ _ _).1 h
    exact ⟨_, h3⟩
  · rw [s4, s1]
    have := hb.time
    change sim.state.time = _ at this
    rw [this, ← hb.timeStep]; ring

omit [DecidableEq K] in
theorem inject_snapshot (products : List ℕ) (sim : Simulation K V) :
    (Engine.inject products sim).state.toSnapshot = sim.state.toSnapshot := by
  unfold Engine.inject
  exact injectAll_snapshot _ _ _

/-- What is preserved by steps is preserved by `run`. -/
theorem steps_relation (e : Engine K) (c : Coordinates) (inv : SolverState K → Snapshot K → Prop)
    (R : Snapshot K → Snapshot K → Prop) (hrefl : ∀ s, R s s)
    (htrans : ∀ a b c, R a b → R b c → R a c)
    (hstep : ∀ sim sim' : Simulation K V, inv sim.solver sim.state.toSnapshot →
      e.step c sim = .ok sim' →
      inv sim'.solver sim'.state.toSnapshot ∧ R sim.state.toSnapshot sim'.state.toSnapshot)
    (n : ℕ) (sim sim' : Simulation K V) (hi : inv sim.solver sim.state.toSnapshot)
    (h : e.steps c n sim = .ok sim') :
    inv sim'.solver sim'.state.toSnapshot ∧ R sim.state.toSnapshot sim'.state.toSnapshot := by
  induction n generalizing sim with
  | zero => cases h; exact ⟨hi, hrefl _⟩
  | succ n ih =>
    simp only [Engine.steps, bind, Except.bind] at h
    cases h1 : e.step c sim with
    | error err => simp [h1] at h
    | ok sim1 =>
      simp only [h1] at h
      obtain ⟨i1, r1⟩ := hstep _ _ hi h1
      obtain ⟨i2, r2⟩ := ih _ i1 h
      exact ⟨i2, htrans _ _ _ r1 r2⟩

/-- A relation respected by all steps holds between any two states returned, also the first one. -/
theorem outputs_relation (e : Engine K) (c : Coordinates) (products : List ℕ)
    (inv : SolverState K → Snapshot K → Prop) (R : Snapshot K → Snapshot K → Prop)
    (hrefl : ∀ s, R s s) (htrans : ∀ a b c, R a b → R b c → R a c)
    (hstep : ∀ sim sim' : Simulation K V, inv sim.solver sim.state.toSnapshot →
      e.step c sim = .ok sim' →
      inv sim'.solver sim'.state.toSnapshot ∧ R sim.state.toSnapshot sim'.state.toSnapshot)
    (l : List ℤ) (sim sim' : Simulation K V) (rs : List (State K))
    (hi : inv sim.solver sim.state.toSnapshot) (h : e.outputs c products l sim = .ok (rs, sim')) :
    inv sim'.solver sim'.state.toSnapshot ∧ R sim.state.toSnapshot sim'.state.toSnapshot ∧
    List.Pairwise R (sim.state.toSnapshot :: rs.map fun s => s.toSnapshot) := by
  induction l generalizing sim rs with
  | nil => cases h; exact ⟨hi, hrefl _, by simp⟩
  | cons n l ih =>
    simp only [Engine.outputs, Engine.run, bind, Except.bind, pure, Except.pure] at h
    cases h1 : e.steps c n.toNat (Engine.inject products sim) with
    | error err => simp [h1] at h
    | ok sim1 =>
      simp only [h1] at h
      split at h
      · cases h
      · rename_i p hp
        cases h
        obtain ⟨i1, r1⟩ := steps_relation e c inv R hrefl htrans hstep _ _ _
          (by rw [inject_snapshot]; exact hi) h1
        rw [inject_snapshot] at r1
        obtain ⟨i2, r2, r3⟩ := ih ⟨sim1.solver, sim1.state, (State.copy e.grid sim1.state sim1.store).2⟩
          p.1 i1 hp
        refine ⟨i2, htrans _ _ _ r1 r2, ?_⟩
        rw [List.map_cons, copy_snapshot, List.pairwise_cons]
        refine ⟨fun b hb => ?_, r3⟩
        rcases List.mem_cons.1 hb with rfl | hb
        · exact r1
        · exact htrans _ _ _ r1 ((List.pairwise_cons.1 r3).1 b hb)

end runs
end Conmech
