import Verif.Lemmas.PiezoError
import Verif.Props.ThermalRuns
import Verif.Props.CreepBody
import Verif.Props.Piezo
import Verif.Props.Tensors
/-!
C117: the passes of `find_solution_uzawa` and the runs of quasistatic piezoelectric problems.
-/
namespace Conmech
open Spec

/-! ### Bodies -/

section
variable {b : PiezoBody}

/-- C117: two motions of the same piezoelectric body under the same loads and with the same electrodes
never get further apart. -/
theorem C117_contraction (h : b.Sound) {f : ℝ → ℕ → ℝ} {T : ℝ} {u v φ u' v' φ' : ℝ → ℕ → ℝ}
    (hm : b.Motion f T u v φ) (hm' : b.Motion f T u' v' φ') :
    AntitoneOn (fun t => b.distance (u t) (φ t) (u' t) (φ' t)) (Set.Icc 0 T) := by
  have key := C106_contraction ⟨h.viscosity.nonneg⟩ h.storesStiffness
    ((h.motion_iff hm.charged).1 hm) ((h.motion_iff hm'.charged).1 hm')
  intro s hs t ht hst
  beta_reduce
  rw [(hm.charged s hs).distance h (hm'.charged s hs), (hm.charged t ht).distance h (hm'.charged t ht)]
  exact key hs ht hst

/-- C117: there is only one motion from a given displacement. -/
theorem C117_unique (h : b.Sound) {f : ℝ → ℕ → ℝ} {T : ℝ} {u v φ u' v' φ' : ℝ → ℕ → ℝ}
    (hm : b.Motion f T u v φ) (hm' : b.Motion f T u' v' φ') (h0 : ∀ r < b.n, u 0 r = u' 0 r) :
    ∀ t ∈ Set.Icc 0 T, (∀ r < b.n, u t r = u' t r ∧ v t r = v' t r) ∧ ∀ p < b.N, φ t p = φ' t p := by
  intro t ht
  have key := C106_unique ⟨h.viscosity.nonneg⟩ h.storesStiffness h.viscous
    ((h.motion_iff hm.charged).1 hm) ((h.motion_iff hm'.charged).1 hm') h0 t ht
  refine ⟨key, fun p hp => ?_⟩
  rw [(hm.charged t ht).eq_potential h p hp, (hm'.charged t ht).eq_potential h p hp]
  unfold PiezoBody.Sound.potential
  rw [act_congr (x := u t) (y := u' t) fun r hr => (key r hr).1]

/-- A motion whose velocity and loads change at bounded rates. -/
theorem piezo_exists (h : b.Sound) (f : ℝ → ℕ → ℝ) (T l : ℝ) (hT : 0 ≤ T) (hl : 0 ≤ l)
    (hf : ∀ s ∈ Set.Icc 0 T, ∀ t ∈ Set.Icc 0 T, ∀ r < b.n, |f s r - f t r| ≤ l * |s - t|) (u₀ : ℕ → ℝ) :
    ∃ u v φ, b.Motion f T u v φ ∧ (∀ r < b.n, u 0 r = u₀ r) ∧
      ∃ cv cf, ModerateCreep b.n b.D b.viscosity h.stiffness (h.loads f) 0 T v cv cf := by
  obtain ⟨u, v, hc, h0, hmod⟩ := C106_exists (f := h.loads f) h.viscosity h.viscous h.stiffness h.convex
    h.contact T l hT hl (fun s hs t ht r hr => by
      unfold PiezoBody.Sound.loads
      rw [sub_sub_sub_cancel_right]
      exact hf s hs t ht r hr) u₀
  exact ⟨u, v, fun t => h.potential (u t), (h.motion_iff fun t _ => h.charged (u t)).2 hc, h0, hmod⟩

/-- C117: motions exist if the loads change at a bounded rate. -/
theorem C117_exists (h : b.Sound) (f : ℝ → ℕ → ℝ) (T l : ℝ) (hT : 0 ≤ T) (hl : 0 ≤ l)
    (hf : ∀ s ∈ Set.Icc 0 T, ∀ t ∈ Set.Icc 0 T, ∀ r < b.n, |f s r - f t r| ≤ l * |s - t|) (u₀ : ℕ → ℝ) :
    ∃ u v φ, b.Motion f T u v φ ∧ ∀ r < b.n, u 0 r = u₀ r := by
  obtain ⟨u, v, φ, h1, h2, -⟩ := piezo_exists h f T l hT hl hf u₀
  exact ⟨u, v, φ, h1, h2⟩

/-- C117: however strong the coupling, it is weak in short time steps. -/
theorem C117_short (h : b.Sound) {q : ℝ} (hq : 0 < q) :
    ∃ τ₀, 0 < τ₀ ∧ ∀ τ, 0 < τ → τ ≤ τ₀ → b.Coupling τ q := h.coupling hq

/-- C117: in every time step the velocity and the potential can be found together. -/
theorem C117_together (h : b.Sound) (f u : ℕ → ℝ) {τ : ℝ} (hτ : 0 < τ) :
    ∃ w y, b.Pass f τ u y w y := by
  have hst := h.storesStiffness
  set A : ℕ → ℕ → ℝ := fun r s => b.viscosity r s + τ * h.stiffness r s with hA
  have eact : ∀ x r, act b.n A x r = act b.n b.viscosity x r + τ * act b.n h.stiffness x r := by
    intro x r
    unfold act
    rw [Finset.mul_sum, ← Finset.sum_add_distrib]
    exact Finset.sum_congr rfl fun s _ => by rw [hA]; ring
  have equad : ∀ x, quad b.n A x = quad b.n b.viscosity x + τ * quad b.n h.stiffness x := by
    intro x
    simp only [quad_eq_bilin, bilin]
    rw [Finset.mul_sum, ← Finset.sum_add_distrib]
    refine Finset.sum_congr rfl fun r _ => ?_
    have := eact x r
    unfold act at this
    rw [this]; ring
  have hAs : StoresEnergy b.n A := by
    refine ⟨fun r hr s hs => ?_, fun x => ?_⟩
    · simp only [hA]
      rw [h.viscosity.symm r hr s hs, hst.symm r hr s hs]
    · rw [equad]
      have := h.viscosity.nonneg x
      have := hst.nonneg x
      positivity
  have hAd : DefiniteOn b.n b.D A := fun x hx h0 => by
    rw [equad] at h0
    have k1 := h.viscosity.nonneg x
    have k2 := mul_nonneg hτ.le (hst.nonneg x)
    exact h.viscous x hx (by linarith)
  obtain ⟨w, hw, hbal⟩ := exists_velocity hAs hAd h.convex h.contact fun r : Fin b.n =>
    f r - act b.n h.stiffness u r - act b.N (fun r p => b.coupling p r) h.rest r
  refine ⟨extendZero b.n w, h.potential fun i => u i + τ * extendZero b.n w i, hw, fun y hy => ?_,
    h.charged _⟩
  refine (hbal y hy).trans (le_of_eq ?_)
  congr 1
  refine Finset.sum_congr rfl fun r hr => ?_
  have hr := Finset.mem_range.1 hr
  have e1 : extendZero b.n (fun r : Fin b.n => f r - act b.n h.stiffness u r -
      act b.N (fun r p => b.coupling p r) h.rest r) r = f r - act b.n h.stiffness u r -
      act b.N (fun r p => b.coupling p r) h.rest r := by simp [extendZero, hr]
  have e2 := h.forces (h.charged fun i => u i + τ * extendZero b.n w i) r
  have e3 : act b.n h.stiffness (fun i => u i + τ * extendZero b.n w i) r =
      act b.n h.stiffness u r + τ * act b.n h.stiffness (extendZero b.n w) r := by
    unfold act
    rw [Finset.mul_sum, ← Finset.sum_add_distrib]
    exact Finset.sum_congr rfl fun s _ => by ring
  rw [e1, eact, add_assoc (act b.n b.viscosity (extendZero b.n w) r), e2, e3]
  ring

/-- C117: and in only one way. -/
theorem C117_together_unique (h : b.Sound) {f u w y w' y' : ℕ → ℝ} {τ : ℝ} (hτ : 0 < τ)
    (h1 : b.Pass f τ u y w y) (h2 : b.Pass f τ u y' w' y') :
    (∀ r < b.n, w r = w' r) ∧ ∀ p < b.N, y p = y' p := by
  have k1 := h1.velocity h2
  have k2 := h1.potential h2
  have k3 := h.viscosity.nonneg fun i => w i - w' i
  have k4 := mul_nonneg hτ.le (h.elasticity.nonneg fun i => w i - w' i)
  have k5 := h.permittivity.nonneg fun p => y p - y' p
  have k6 : 0 ≤ b.work (fun p => y p - y' p) fun i => w i - w' i := by
    rw [k2] at k5
    exact nonneg_of_mul_nonneg_right k5 hτ
  unfold PiezoBody.stepPower at k1
  have z1 : quad b.n b.viscosity (fun i => w i - w' i) = 0 := by linarith
  have z2 : b.work (fun p => y p - y' p) (fun i => w i - w' i) = 0 := by linarith
  rw [z2, mul_zero] at k2
  refine ⟨fun r hr => ?_, fun p hp => ?_⟩
  · exact sub_eq_zero.1 (h.viscous _ (still_sub h1.held h2.held) z1 r hr)
  · refine sub_eq_zero.1 (h.grounded _ (fun q hq hD => ?_) k2 p hp)
    rw [h1.charged.electrodes q hq hD, h2.charged.electrodes q hq hD, sub_self]

/-- The passes of a time step approach the fields found together. -/
theorem piezo_passes_converge (h : b.Sound) {f u : ℕ → ℝ} {τ q : ℝ} (hτ : 0 < τ) (hq : 0 ≤ q)
    (hc : b.Coupling τ q) {m : ℕ} {x w : ℕ → ℕ → ℝ} (h0 : ∀ p < b.N, b.D' p → x 0 p = b.prescribed p)
    (hp : ∀ i < m, b.Pass f τ u (x i) (w (i + 1)) (x (i + 1)))
    {y z : ℕ → ℝ} (hz : b.Pass f τ u z y z) :
    ∀ i ≤ m, quad b.N b.permittivity (fun p => x i p - z p) ≤
        q ^ (2 * i) * quad b.N b.permittivity (fun p => x 0 p - z p) ∧
      (0 < i → τ * b.stepPower τ (fun r => w i r - y r) ≤
        q ^ (2 * i - 1) * quad b.N b.permittivity fun p => x 0 p - z p) := by
  have hstill : ∀ i ≤ m, Still b.N b.D' fun p => x i p - z p := by
    intro i hi p hp' hD
    beta_reduce
    rw [hz.charged.electrodes p hp' hD]
    cases i with
    | zero => rw [h0 p hp' hD, sub_self]
    | succ i => rw [(hp i (by omega)).charged.electrodes p hp' hD, sub_self]
  intro i
  induction i with
  | zero => intro _; simp
  | succ i ih =>
    intro hi
    have i1 := (ih (by omega)).1
    obtain ⟨c1, c2⟩ := (hp i (by omega)).contracts h hτ hq hc hz (hstill i (by omega))
    have c3 := mul_le_mul_of_nonneg_left i1 hq
    have e1 : q * (q ^ (2 * i) * quad b.N b.permittivity fun p => x 0 p - z p) =
        q ^ (2 * i + 1) * quad b.N b.permittivity fun p => x 0 p - z p := by rw [pow_succ]; ring
    rw [e1] at c3
    refine ⟨?_, fun _ => ?_⟩
    · have c4 := mul_le_mul_of_nonneg_left (c1.trans c3) hq
      refine c2.trans (c4.trans (le_of_eq ?_))
      rw [show 2 * (i + 1) = 2 * i + 1 + 1 by ring, pow_succ q (2 * i + 1)]; ring
    · rw [show 2 * (i + 1) - 1 = 2 * i + 1 by omega]
      exact c1.trans c3

end

/-! ### Engines -/

section
variable {V : Type}

/-- A coupled solver of quasistatic piezoelectric problems: `D` is the set of the held degrees of freedom of
the displacement, `D'` the one of the nodes on electrodes, whose potential is `g`. -/
structure Piezoelectric (e : CoupledEngine ℝ) (D D' : ℕ → Prop) (g : ℕ → ℝ) : Prop where
  first : e.first.kind = .quasistaticVelocityWithPiezoelectric
  second : e.second.kind = .piezoelectric
  state : e.stateKind = .piezoelectric
  ops : e.second.ops = e.first.ops
  dimension : e.first.ops.dimension = 2
  boundaries : ValidBoundaries e.first.ops.nodesCount e.first.boundaries
  supports : DirichletData e.first.ops.nodesCount 2 e.first.boundaries D fun _ => 0
  boundaries' : ValidBoundaries e.first.ops.nodesCount e.second.boundaries
  electrodes : DirichletData e.first.ops.nodesCount 1 e.second.boundaries D' g

/-- The body of the problem, with the potential `J` of contact. -/
def piezoBody (e : CoupledEngine ℝ) (D D' : ℕ → Prop) (g : ℕ → ℝ) (J : (ℕ → ℝ) → ℝ) : PiezoBody where
  n := 2 * e.first.ops.nodesCount
  N := e.first.ops.nodesCount
  D := D
  D' := D'
  prescribed := g
  viscosity := e.first.ops.viscosity
  elasticity := e.first.ops.elasticity
  permittivity := e.first.ops.permittivity
  coupling := e.first.ops.piezoelectricity
  contact := J

theorem piezo_passes (e : CoupledEngine ℝ) (D D' : ℕ → Prop) [DecidablePred D] [DecidablePred D']
    (g : ℕ → ℝ) (he : Piezoelectric e D D' g) (J : (ℕ → ℝ) → ℝ) (dt : ℝ)
    (hs : ContactSolve e.first (2 * e.first.ops.nodesCount) D dt J)
    (hs' : ExactSolve e.second e.first.ops.nodesCount dt) (u v θ p : ℕ → ℝ) (t : ℝ) (m : ℕ)
    (it : ℕ → Coupled ℝ) (hp : Passes e u v θ p dt dt t m it) :
    ∀ i < m, (piezoBody e D D' g J).Pass (e.first.ops.force t) dt u (it i).solutionT
      (it (i + 1)).solution (it (i + 1)).solutionT := by
  intro i hi
  obtain ⟨k1, k2, k3, k4, k5, k6, k7, k8, k9⟩ := he
  have h1 := hp.first i hi
  have h2 := hp.solution i hi
  obtain ⟨hD, hP⟩ := hs (it (i + 1)).first (it i).solution _ rfl h1
  have h1' := hp.second i hi
  have h2' := hp.solutionT i hi
  have hsol := hs' (it (i + 1)).second (it i).solutionT _ rfl h1'
  rw [← h2] at hD hP
  rw [← h2'] at hsol
  rw [k1] at h1
  rw [k2, k4] at h1'
  have h4 : applyDirichlet e.first.ops.nodesCount 2 e.first.boundaries
      ⟨fun r s => e.first.ops.viscosity r s + e.first.ops.elasticity r s * dt,
        fun i' => e.first.ops.force t i' -
          matVec (e.first.ops.dimension * e.first.ops.nodesCount) e.first.ops.elasticity u i' +
          matVec e.first.ops.nodesCount (fun r s => -1 * transposed e.first.ops.piezoelectricity r s)
            (it i).solutionT i'⟩ =
        (it (i + 1)).first.system := Except.ok.inj h1
  rw [k5] at h4
  refine ⟨hD, fun y hy => ?_, ?_⟩
  · refine (hP y hy).trans (le_of_eq ?_)
    rw [← h4, residual_elimination _ _ _ _ D k6 k7 _ (fun i' => y i' - (it (i + 1)).solution i') hD
      (still_sub hy hD)]
    change _ + _ = _ + (J y - J _)
    congr 1
    refine Finset.sum_congr rfl fun r _ => ?_
    congr 1
    change _ = act (2 * e.first.ops.nodesCount) e.first.ops.viscosity (it (i + 1)).solution r +
      act (2 * e.first.ops.nodesCount) e.first.ops.elasticity (fun i' => u i' + dt * (it (i + 1)).solution i') r +
      act e.first.ops.nodesCount (fun r p => e.first.ops.piezoelectricity p r) (it i).solutionT r -
      e.first.ops.force t r
    have a1 : matVec e.first.ops.nodesCount (fun r s => -1 * transposed e.first.ops.piezoelectricity r s)
        (it i).solutionT r = -act e.first.ops.nodesCount (fun r p => e.first.ops.piezoelectricity p r)
          (it i).solutionT r := by
      unfold matVec act transposed
      rw [← Finset.sum_neg_distrib]
      exact Finset.sum_congr rfl fun s _ => by ring
    have a2 : act (2 * e.first.ops.nodesCount) e.first.ops.elasticity
        (fun i' => u i' + dt * (it (i + 1)).solution i') r =
        matVec (2 * e.first.ops.nodesCount) e.first.ops.elasticity u r +
          ∑ s ∈ Finset.range (2 * e.first.ops.nodesCount),
            e.first.ops.elasticity r s * dt * (it (i + 1)).solution s := by
      unfold act matVec
      rw [← Finset.sum_add_distrib]
      exact Finset.sum_congr rfl fun s _ => by ring
    dsimp only
    rw [a1, a2]
    simp only [add_mul, Finset.sum_add_distrib]
    unfold act
    ring
  · obtain ⟨S, hS, hiff⟩ := C35_potential e.first.ops e.second.boundaries D' g k5 k8 k9
      (fun k => u k + dt * (it (i + 1)).solution k)
      { displacement := some fun k => u k + dt * (it (i + 1)).solution k
        velocity := some (it (i + 1)).solution, temperature := some θ, electricPotential := some p
        timeStep := some dt } rfl
    rw [h1'] at hS
    cases hS
    obtain ⟨c1, c2⟩ := (hiff _).1 hsol
    exact ⟨c1, c2⟩

/-- Between two steps the potential from which the passes start is the one of the state. -/
def PotentialIsState (r : CoupledEngine.Run ℝ V) : Prop := r.coupled.solutionT = r.coupled.first.pVector

theorem potential_step (e : CoupledEngine ℝ) (fuel : ℕ) (r r' : CoupledEngine.Run ℝ V)
    (h : e.step fuel r = .ok r') : PotentialIsState r' := by
  simp only [CoupledEngine.step, bind, Except.bind] at h
  split at h
  · cases h
  · rename_i c1 h1
    obtain ⟨_, _, _, ⟨_, _, g3, _⟩, _⟩ := C40_consistent e fuel _ c1.1 c1.2 h1
    simp only [State.setVelocity, bind, Except.bind] at h
    split at h
    · cases h
    · rename_i p hp'
      split at hp'
      · cases hp'
      · cases hp'
        cases h
        exact g3.symm

theorem potential_start (e : CoupledEngine ℝ) (hst : e.stateKind = .piezoelectric)
    (a : Engine.Arguments ℝ)
    (x : ℕ → ℝ) (first second : SolverState ℝ) (store : ProductStore ℝ V) (hc : first.currentTime = 0)
    (hdt : second.timeStep = first.timeStep) (c : Coupled ℝ) (s : State ℝ)
    (h : e.start a x first second = .ok (c, s)) : PotentialIsState (V := V) ⟨c, s, store⟩ := by
  obtain ⟨_, _, _, _, _, _, h4⟩ := coupled_between_start e a x first second store hc hdt c s h
  have h4 := h4 hst
  simp only [CoupledEngine.start, bind, Except.bind] at h
  split at h
  · cases h
  · split at h
    · cases h
    · cases h
      exact h4.symm

/-- One step in terms of the passes of the body. -/
theorem piezo_step_passes (e : CoupledEngine ℝ) (D D' : ℕ → Prop) [DecidablePred D] [DecidablePred D']
    (g : ℕ → ℝ) (he : Piezoelectric e D D' g) (J : (ℕ → ℝ) → ℝ) (fuel : ℕ) (dt : ℝ)
    (hs : ContactSolve e.first (2 * e.first.ops.nodesCount) D dt J)
    (hs' : ExactSolve e.second e.first.ops.nodesCount dt)
    (r r' : CoupledEngine.Run ℝ V) (hb : CoupledBetween e dt r) (hg : PotentialIsState r)
    (h : e.step fuel r = .ok r') :
    r'.state.time = r.state.time + dt ∧
    (State.flatten e.first.grid r'.state.displacement = fun i =>
      State.flatten e.first.grid r.state.displacement i +
        dt * State.flatten e.first.grid r'.state.velocity i) ∧
    ∃ (m : ℕ) (x w : ℕ → ℕ → ℝ), 5 ≤ m ∧ m ≤ 10 ∧
      (∀ i < m, (piezoBody e D D' g J).Pass (e.first.ops.force (r.state.time + dt)) dt
        (State.flatten e.first.grid r.state.displacement) (x i) (w (i + 1)) (x (i + 1))) ∧
      r.state.scalar = .potential (x 0) ∧ r'.state.scalar = .potential (x m) ∧
      State.flatten e.first.grid r'.state.velocity = w m := by
  obtain ⟨hb', hdis, htime, m, it, m5, m10, hp, h0, hv, _, hP⟩ := coupled_step_passes e fuel dt r r' hb h
  have hx0 : (it 0).solutionT = r.coupled.first.pVector := h0.trans hg
  refine ⟨htime, hdis, m, fun i => (it i).solutionT, fun i => (it i).solution, m5, m10, fun i hi => ?_, ?_, ?_, hv⟩
  · exact piezo_passes e D D' g he J dt hs hs' _ _ _ _ _ m it hp i hi
  · beta_reduce
    rw [hb.scalar, he.state, hx0]; rfl
  · beta_reduce
    rw [hb'.scalar, he.state, ← hP]; rfl

/-- C117, the passes of one step: if the coupling in a time step is at most `q`, the returned fields are
close to the ones of the step in which both are found together, the velocity `y` and the potential `z`: if
the potential at the beginning is right on the electrodes, the distances are at most `q⁹` and `q¹⁰` times
its distance. -/
theorem C117_step (e : CoupledEngine ℝ) (D D' : ℕ → Prop) [DecidablePred D] [DecidablePred D']
    (g : ℕ → ℝ) (he : Piezoelectric e D D' g) (J : (ℕ → ℝ) → ℝ) (hb : (piezoBody e D D' g J).Sound) (fuel : ℕ)
    (dt : ℝ) (hdt : 0 < dt) (q : ℝ) (hq : 0 ≤ q) (hq1 : q ≤ 1)
    (hc : (piezoBody e D D' g J).Coupling dt q)
    (hs : ContactSolve e.first (2 * e.first.ops.nodesCount) D dt J)
    (hs' : ExactSolve e.second e.first.ops.nodesCount dt)
    (r r' : CoupledEngine.Run ℝ V) (hbet : CoupledBetween e dt r) (hg : PotentialIsState r)
    (h : e.step fuel r = .ok r') :
    ∃ φ φ', r.state.scalar = .potential φ ∧ r'.state.scalar = .potential φ' ∧
      ∀ y z, (∀ p < e.first.ops.nodesCount, D' p → φ p = g p) → (piezoBody e D D' g J).Pass
        (e.first.ops.force (r.state.time + dt)) dt (State.flatten e.first.grid r.state.displacement) z y z →
      quad e.first.ops.nodesCount e.first.ops.permittivity (fun p => φ' p - z p) ≤
        q ^ 10 * quad e.first.ops.nodesCount e.first.ops.permittivity (fun p => φ p - z p) ∧
      dt * (piezoBody e D D' g J).stepPower dt
          (fun i => State.flatten e.first.grid r'.state.velocity i - y i) ≤
        q ^ 9 * quad e.first.ops.nodesCount e.first.ops.permittivity fun p => φ p - z p := by
  obtain ⟨_, _, m, x, w, m5, m10, hp, h0, h1, h2⟩ := piezo_step_passes e D D' g he J fuel dt hs hs' r r'
    hbet hg h
  refine ⟨x 0, x m, h0, h1, fun y z hθ hz => ?_⟩
  obtain ⟨k1, k2⟩ := piezo_passes_converge hb hdt hq hc hθ hp hz m le_rfl
  have k2 := k2 (by omega)
  have hn := hb.permittivity.nonneg fun p => x 0 p - z p
  rw [h2]
  constructor
  · exact k1.trans (mul_le_mul_of_nonneg_right (pow_le_pow_of_le_one hq hq1 (by omega)) hn)
  · exact k2.trans (mul_le_mul_of_nonneg_right (pow_le_pow_of_le_one hq hq1 (by omega)) hn)

theorem piezo_gronwall {E E' t τ K : ℝ} (hK : 0 ≤ K) (hτ : 0 < τ) (ht : 0 ≤ t)
    (hE : E ≤ t * τ ^ 2 * (K * Real.exp (K * t))) (h : E' ≤ (1 + K * τ) * E + K * τ ^ 3) :
    E' ≤ (t + τ) * τ ^ 2 * (K * Real.exp (K * (t + τ))) := by
  have key := real_gronwall (E := E / τ) (E' := E' / τ) hK hτ ht (by
    rw [div_le_iff₀ hτ]
    refine hE.trans (le_of_eq (by ring))) (by
    rw [div_le_iff₀ hτ]
    refine h.trans (le_of_eq ?_)
    field_simp)
  rw [div_le_iff₀ hτ] at key
  exact key.trans (le_of_eq (by ring))

/-- C117, quasistatic piezoelectric runs: there is a motion of the body from the initial displacement, and
the states returned by `solve` are at most a multiple of the time step away from it: the displacements of
all of them and, after the start, the potentials, whatever the initial potential is. The multiple depends on
the body, the loads, the initial state and the time considered, not on the time step. -/
theorem C117_converges (e : CoupledEngine ℝ) (D D' : ℕ → Prop) [DecidablePred D] [DecidablePred D']
    (g : ℕ → ℝ) (he : Piezoelectric e D D' g) (J : (ℕ → ℝ) → ℝ) (hb : (piezoBody e D D' g J).Sound)
    (fuel : ℕ) (T l : ℝ) (hT : 0 ≤ T) (hl : 0 ≤ l)
    (hf : ∀ s ∈ Set.Icc 0 T, ∀ t ∈ Set.Icc 0 T, ∀ r < 2 * e.first.ops.nodesCount,
      |e.first.ops.force s r - e.first.ops.force t r| ≤ l * |s - t|)
    (hs : ∀ dt, 0 < dt → ContactSolve e.first (2 * e.first.ops.nodesCount) D dt J)
    (hs' : ∀ dt, 0 < dt → ExactSolve e.second e.first.ops.nodesCount dt)
    (u₀ : ℕ → ℕ → ℝ) (φ₀ : ℕ → ℝ) :
    ∃ (u v φ : ℝ → ℕ → ℝ) (C : ℝ),
      (piezoBody e D D' g J).Motion e.first.ops.force T u v φ ∧
      (∀ r < 2 * e.first.ops.nodesCount, u 0 r = State.flatten e.first.grid u₀ r) ∧
      ∀ (a : Engine.Arguments ℝ) (first second : SolverState ℝ) (store : ProductStore ℝ V)
        (rs : List (State ℝ)) (r : CoupledEngine.Run ℝ V),
        a.initialDisplacement = u₀ → first.currentTime = 0 →
        0 < first.timeStep → second.timeStep = first.timeStep →
        e.solve fuel a φ₀ first second store = .ok (rs, r) →
        ∀ s ∈ rs, s.time ≤ T →
          Real.sqrt (quad (2 * e.first.ops.nodesCount) e.first.ops.elasticity
            fun i => State.flatten e.first.grid s.displacement i - u s.time i) ≤ first.timeStep * C ∧
          (0 < s.time → ∃ ϕ, s.scalar = .potential ϕ ∧
            (piezoBody e D D' g J).distance (State.flatten e.first.grid s.displacement) ϕ
              (u s.time) (φ s.time) ≤ first.timeStep * C) := by
  set b := piezoBody e D D' g J with hbdef
  obtain ⟨U, W, Φ, hm, h0, cv, cf, hmod⟩ := piezo_exists hb e.first.ops.force T l hT hl hf
    (State.flatten e.first.grid u₀)
  obtain ⟨d, hd, hdb⟩ := hb.work_bounded fun q => φ₀ q - hb.potential (State.flatten e.first.grid u₀) q
  obtain ⟨K, hK, hstep⟩ := hb.step_error hm hmod hd
  refine ⟨U, W, Φ, Real.sqrt (T * (K * Real.exp (K * T))), hm, h0,
    fun a first second store rs r ha1 hc hdt hts hsol s hmem hsT => ?_⟩
  obtain ⟨qr, hqb, ⟨hg, ht, ϕ, hϕ, hch, -, herr⟩, rfl⟩ := coupled_invariant e fuel a φ₀ first second store hc hts
    (fun q => PotentialIsState q ∧ 0 ≤ q.state.time ∧ ∃ ϕ, q.state.scalar = .potential ϕ ∧
      (0 < q.state.time → b.Charged (State.flatten e.first.grid q.state.displacement) ϕ) ∧
      (∀ z, Still b.n b.D z →
        |b.work (fun i => ϕ i - hb.potential (State.flatten e.first.grid q.state.displacement) i) z| ≤
          d * Real.sqrt (quad b.n b.viscosity z)) ∧
      (q.state.time ≤ T → strainDistance b.n hb.stiffness
        (State.flatten e.first.grid q.state.displacement) (U q.state.time) ^ 2 ≤
          q.state.time * first.timeStep ^ 2 * (K * Real.exp (K * q.state.time))))
    (fun c s hst hbet => by
      obtain ⟨_, _, h2, h3, _, _, h5⟩ := coupled_between_start e a φ₀ first second store hc hts c s hst
      have h5 := h5 he.state
      refine ⟨potential_start e he.state a φ₀ first second store hc hts c s hst,
        by simp only [h2]; exact le_rfl, c.first.pVector, ?_, fun hlt => ?_, ?_, fun _ => ?_⟩
      · rw [hbet.scalar, he.state]; rfl
      · simp only [h2] at hlt
        exact absurd hlt (lt_irrefl _)
      · simp only [h3, ha1, h5]
        exact hdb
      · simp only [h2, h3, ha1]
        unfold strainDistance
        rw [quad_zero_vector fun r hr => by rw [h0 r hr, sub_self]]
        simp)
    (fun q q' hbet hq hstp => by
      obtain ⟨hg, ht, ϕ, hϕ, hch, hwork, herr⟩ := hq
      obtain ⟨htime, hdis, m, x, w, m5, m10, hp, k0, k1, k2⟩ := piezo_step_passes e D D' g he J fuel _
        (hs _ hdt) (hs' _ hdt) q q' hbet hg hstp
      rw [hϕ] at k0
      cases k0
      have hch' : b.Charged (State.flatten e.first.grid q'.state.displacement) (x m) := by
        obtain ⟨j, rfl⟩ : ∃ j, m = j + 1 := ⟨m - 1, by omega⟩
        rw [hdis, k2]
        exact (hp j (by omega)).charged
      refine ⟨potential_step e fuel q q' hstp, by rw [htime]; positivity, x m, k1, fun _ => hch',
        fun z hz => ?_, fun hle => ?_⟩
      · rw [b.work_congr (φ' := fun _ => 0) (u' := z)
          (fun p hp => sub_eq_zero.2 (hch'.eq_potential hb p hp)) fun _ _ => rfl]
        have : b.work (fun _ => 0) z = 0 := by simp [PiezoBody.work]
        rw [this, abs_zero]
        positivity
      · rw [htime] at hle ⊢
        have := hstep first.timeStep q.state.time _ m x w hdt ht hle (by omega) (by omega) hp hwork
        rw [hdis, k2]
        exact piezo_gronwall hK hdt ht (herr (by linarith)) this)
    rs r hsol s hmem
  have hst : strainDistance b.n hb.stiffness (State.flatten e.first.grid qr.state.displacement)
      (U qr.state.time) ≤ first.timeStep * Real.sqrt (T * (K * Real.exp (K * T))) := by
    have k1 := herr hsT
    refine abs_le_of_sq_le_sq' ?_ (by positivity) |>.2
    rw [mul_pow, Real.sq_sqrt (by positivity)]
    refine k1.trans ?_
    have k2 : Real.exp (K * qr.state.time) ≤ Real.exp (K * T) :=
      Real.exp_le_exp.2 (mul_le_mul_of_nonneg_left hsT hK)
    calc qr.state.time * first.timeStep ^ 2 * (K * Real.exp (K * qr.state.time)) ≤
        T * first.timeStep ^ 2 * (K * Real.exp (K * T)) := by gcongr
      _ = _ := by ring
  refine ⟨le_trans ?_ hst, fun hlt => ⟨ϕ, hϕ, ?_⟩⟩
  · unfold strainDistance
    refine Real.sqrt_le_sqrt ?_
    rw [hb.quad_stiffness]
    have := hb.permittivity.nonneg (act b.n hb.answer fun i =>
      State.flatten e.first.grid qr.state.displacement i - U qr.state.time i)
    exact le_add_of_nonneg_right this
  · rw [(hch hlt).distance hb (hm.charged _ ⟨ht, hsT⟩)]
    exact hst

/-- C117: quasistatic piezoelectric runs return, with either quasistatic solver and from every state. -/
theorem C117_runs (e : CoupledEngine ℝ) (hk : e.first.kind = .quasistaticVelocityWithPiezoelectric)
    (hk' : e.second.kind = .piezoelectric)
    (hc : e.first.cls = .quasistaticGlobal ∨ e.first.cls = .quasistaticSchur)
    (hc' : e.second.cls = .quasistaticGlobal ∨ e.second.cls = .quasistaticSchur) (fuel : ℕ) (hf : 11 ≤ fuel)
    (a : Engine.Arguments ℝ) (φ₀ : ℕ → ℝ) (first second : SolverState ℝ) (store : ProductStore ℝ V) :
    ∃ rs r, e.solve fuel a φ₀ first second store = .ok (rs, r) := by
  have hpass : ∀ (u v θ p : ℕ → ℝ) (c : Coupled ℝ), ∃ c', e.pass u v θ p c = .ok c' := by
    intro u v θ p c
    unfold CoupledEngine.pass SolverState.updateSystem
    rw [hk, hk']
    exact ⟨_, rfl⟩
  have i1 : ∀ s, ∃ s', e.first.iterate s = .ok s' := fun s => by
    unfold Engine.iterate SolverState.iterate
    rw [hk]
    rcases hc with h | h <;> rw [h] <;> exact ⟨_, rfl⟩
  have i2 : ∀ s, ∃ s', e.second.iterate s = .ok s' := fun s => by
    unfold Engine.iterate SolverState.iterate
    rw [hk']
    rcases hc' with h | h <;> rw [h] <;> exact ⟨_, rfl⟩
  exact coupled_runs e hpass i1 i2 fuel hf a φ₀ first second store

end

/-! ### Triangular meshes -/

theorem product_le_sqrt {A : ℝ} (hA : 0 ≤ A) (a b c d : ℝ) :
    |A * (a * c + b * d)| ≤ Real.sqrt (A * (a ^ 2 + b ^ 2)) * Real.sqrt (A * (c ^ 2 + d ^ 2)) := by
  rw [← Real.sqrt_mul (by positivity)]
  refine Real.abs_le_sqrt ?_
  have : 0 ≤ A ^ 2 * (a * d - b * c) ^ 2 := by positivity
  nlinarith

theorem hooke_le (m m' θ ζ μ l τ q : ℝ) (h1 : 0 ≤ q * ζ) (h2 : 0 ≤ q * (τ * l))
    (h : m + m' ≤ q * (θ + τ * μ)) (G : ℕ → ℕ → ℝ) :
    hooke 2 m 0 G G + hooke 2 m' 0 G G ≤ q * (hooke 2 θ ζ G G + τ * hooke 2 μ l G G) := by
  unfold hooke
  simp only [Finset.sum_range_succ, Finset.sum_range_zero, zero_add]
  set S := (G 0 0 + G 0 0) / 2 * ((G 0 0 + G 0 0) / 2) + (G 0 1 + G 1 0) / 2 * ((G 0 1 + G 1 0) / 2) +
    ((G 1 0 + G 0 1) / 2 * ((G 1 0 + G 0 1) / 2) + (G 1 1 + G 1 1) / 2 * ((G 1 1 + G 1 1) / 2)) with hS
  set t := (G 0 0 + G 1 1) * (G 0 0 + G 1 1) with ht
  have hS0 : 0 ≤ S := by
    rw [hS]
    nlinarith [mul_self_nonneg ((G 0 0 + G 0 0) / 2), mul_self_nonneg ((G 0 1 + G 1 0) / 2),
      mul_self_nonneg ((G 1 0 + G 0 1) / 2), mul_self_nonneg ((G 1 1 + G 1 1) / 2)]
  have ht0 : 0 ≤ t := mul_self_nonneg _
  have k1 := mul_le_mul_of_nonneg_right h hS0
  have k2 := mul_nonneg h1 ht0
  have k3 := mul_nonneg h2 ht0
  nlinarith

/-- C117, how strong the coupling is on triangular meshes: it depends on the coefficients and the time step,
not on the mesh. With `c` the piezoelectric coefficients, `p` the least eigenvalue of the permittivity
tensor and `μ`, `θ` the shear moduli of elasticity and viscosity, it is at most
`|c|² τ / (2 p (θ + τ μ))`. -/
theorem C117_coupling {N : ℕ} {elements : List (List ℕ)} {nodes : ℕ → ℕ → ℝ}
    (hve : ValidElements 2 N elements) (hnd : Nondegenerate2 elements nodes)
    (mu lam theta zeta : ℝ) (hmu : 0 ≤ mu) (hlam : 0 ≤ lam)
    (htheta : 0 ≤ theta) (hzeta : 0 ≤ zeta) (c : ℕ → ℕ → ℕ → ℝ) (hc : ∀ k < 2, c 0 k 1 = c 1 k 0)
    (κ : ℕ → ℕ → ℝ) (p : ℝ) (hp : 0 < p)
    (hκ : ∀ z : ℕ → ℝ, p * (z 0 ^ 2 + z 1 ^ 2) ≤
      ∑ k ∈ Finset.range 2, ∑ l ∈ Finset.range 2, κ k l * (z k * z l)) (b : PiezoBody)
    (hn : b.n = 2 * N) (hN : b.N = N)
    (hvis : b.viscosity = Plane.constitutive N (basicMatrices2 elements nodes).W theta zeta)
    (hel : b.elasticity = Plane.constitutive N (basicMatrices2 elements nodes).W mu lam)
    (hper : b.permittivity = Plane.conductivity (basicMatrices2 elements nodes).W κ)
    (hpie : b.coupling = Plane.piezoelectricTensor N (basicMatrices2 elements nodes).W c)
    (τ q : ℝ) (hτ : 0 < τ) (hq : 0 ≤ q)
    (hw : (∑ a ∈ Finset.range 2, ∑ k ∈ Finset.range 2, ∑ l ∈ Finset.range 2, c a k l ^ 2) * τ ≤
      q * (2 * p * (theta + τ * mu))) :
    b.Coupling τ q := by
  intro x y _ _
  obtain ⟨G, hG⟩ := exists_vectorGradient (N := N) (Plane.allLocal hnd) x
  obtain ⟨F, hF⟩ := exists_fieldGradient (Plane.allLocal hnd) y
  set A : ℕ → ℝ := fun t => area (vertices nodes (elements.getD t [])) with hA
  have hA0 : ∀ t, 0 ≤ A t := fun t => by simp only [hA, area]; positivity
  set s : ℕ → ℕ → ℝ := fun k t => c 0 k 0 * G t 0 0 + c 0 k 1 * G t 0 1 +
    (c 1 k 0 * G t 1 0 + c 1 k 1 * G t 1 1) with hs
  set I := Finset.range elements.length with hI
  have e1 : b.work y x = ∑ t ∈ I, A t * (F t 0 * s 0 t + F t 1 * s 1 t) := by
    have := C63_form hve hnd c y x F G hF hG
    unfold PiezoBody.work
    rw [hn, hN, hpie]
    refine Eq.trans ?_ (this.trans ?_)
    · unfold form act
      exact Finset.sum_congr rfl fun p _ => by
        rw [Finset.mul_sum]; exact Finset.sum_congr rfl fun r _ => by ring
    · unfold piezoPower sumElements
      refine Finset.sum_congr rfl fun t _ => ?_
      simp only [hA, hs, Finset.sum_range_succ, Finset.sum_range_zero, zero_add]
      ring
  have e2 : p * ∑ t ∈ I, A t * (F t 0 ^ 2 + F t 1 ^ 2) ≤ quad N b.permittivity y := by
    rw [hper, quad_eq_form, form_conductivity2 hve hnd κ y y F F hF hF]
    unfold conduction sumElements
    rw [Finset.mul_sum]
    refine Finset.sum_le_sum fun t _ => ?_
    have := mul_le_mul_of_nonneg_left (hκ (F t)) (hA0 t)
    calc p * (A t * (F t 0 ^ 2 + F t 1 ^ 2)) = A t * (p * (F t 0 ^ 2 + F t 1 ^ 2)) := by ring
      _ ≤ _ := this
  have e3 : ∀ m l, quad (2 * N) (Plane.constitutive N (basicMatrices2 elements nodes).W m l) x =
      ∑ t ∈ I, A t * hooke 2 m l (G t) (G t) := by
    intro m l
    rw [quad_eq_form, C26_hooke hve hnd m l x x G G hG hG]
    rfl
  have e4 : b.work y x ^ 2 ≤ (∑ t ∈ I, A t * (F t 0 ^ 2 + F t 1 ^ 2)) *
      ∑ t ∈ I, A t * (s 0 t ^ 2 + s 1 t ^ 2) := by
    rw [e1]
    have k1 := Finset.sum_mul_sq_le_sq_mul_sq I
      (fun t => Real.sqrt (A t * (F t 0 ^ 2 + F t 1 ^ 2)))
      fun t => Real.sqrt (A t * (s 0 t ^ 2 + s 1 t ^ 2))
    have r1 : ∀ t, Real.sqrt (A t * (F t 0 ^ 2 + F t 1 ^ 2)) ^ 2 = A t * (F t 0 ^ 2 + F t 1 ^ 2) := fun t =>
      Real.sq_sqrt (mul_nonneg (hA0 t) (by positivity))
    have r2 : ∀ t, Real.sqrt (A t * (s 0 t ^ 2 + s 1 t ^ 2)) ^ 2 = A t * (s 0 t ^ 2 + s 1 t ^ 2) := fun t =>
      Real.sq_sqrt (mul_nonneg (hA0 t) (by positivity))
    simp only [r1, r2] at k1
    refine le_trans (sq_le_sq' ?_ ?_) k1
    · rw [neg_le, ← Finset.sum_neg_distrib]
      refine Finset.sum_le_sum fun t _ => ?_
      exact (neg_le_abs _).trans (product_le_sqrt (hA0 t) _ _ _ _)
    · refine Finset.sum_le_sum fun t _ => ?_
      exact (le_abs_self _).trans (product_le_sqrt (hA0 t) _ _ _ _)
  have e5 : τ / p * ∑ t ∈ I, A t * (s 0 t ^ 2 + s 1 t ^ 2) ≤ q * b.stepPower τ x := by
    have hpoint : ∀ t, τ / p * (s 0 t ^ 2 + s 1 t ^ 2) ≤
        q * (hooke 2 theta zeta (G t) (G t) + τ * hooke 2 mu lam (G t) (G t)) := by
      intro t
      have hk : ∀ k < 2, τ / p * s k t ^ 2 ≤
          hooke 2 ((c 0 k 0 ^ 2 + c 0 k 1 ^ 2 + c 1 k 0 ^ 2 + c 1 k 1 ^ 2) * (τ / p) / 2) 0 (G t) (G t) :=
        fun k hk => tensor_square (fun a l => c a k l) (hc k hk) (G t) (τ / p) _ 0 le_rfl
          (by linarith) (by positivity)
      have h1 := add_le_add (hk 0 (by norm_num)) (hk 1 (by norm_num))
      rw [← mul_add] at h1
      refine h1.trans ?_
      have hm : (c 0 0 0 ^ 2 + c 0 0 1 ^ 2 + c 1 0 0 ^ 2 + c 1 0 1 ^ 2) * (τ / p) / 2 +
          (c 0 1 0 ^ 2 + c 0 1 1 ^ 2 + c 1 1 0 ^ 2 + c 1 1 1 ^ 2) * (τ / p) / 2 ≤ q * (theta + τ * mu) := by
        simp only [Finset.sum_range_succ, Finset.sum_range_zero, zero_add] at hw
        have : (c 0 0 0 ^ 2 + c 0 0 1 ^ 2 + c 1 0 0 ^ 2 + c 1 0 1 ^ 2 +
          (c 0 1 0 ^ 2 + c 0 1 1 ^ 2 + c 1 1 0 ^ 2 + c 1 1 1 ^ 2)) * τ / p ≤ q * (2 * (theta + τ * mu)) := by
          rw [div_le_iff₀ hp]
          refine le_trans (le_of_eq ?_) (hw.trans (le_of_eq ?_)) <;> ring
        calc _ = (c 0 0 0 ^ 2 + c 0 0 1 ^ 2 + c 1 0 0 ^ 2 + c 1 0 1 ^ 2 +
          (c 0 1 0 ^ 2 + c 0 1 1 ^ 2 + c 1 1 0 ^ 2 + c 1 1 1 ^ 2)) * τ / p / 2 := by ring
          _ ≤ _ := by linarith
      exact hooke_le _ _ _ _ _ _ _ _ (by positivity) (by positivity) hm (G t)
    unfold PiezoBody.stepPower
    rw [hn, hvis, hel, e3, e3, Finset.mul_sum]
    rw [Finset.mul_sum, ← Finset.sum_add_distrib, Finset.mul_sum]
    refine Finset.sum_le_sum fun t _ => ?_
    have := mul_le_mul_of_nonneg_left (hpoint t) (hA0 t)
    nlinarith
  have h6 : 0 ≤ ∑ t ∈ I, A t * (s 0 t ^ 2 + s 1 t ^ 2) :=
    Finset.sum_nonneg fun t _ => mul_nonneg (hA0 t) (by positivity)
  have h7 : 0 ≤ ∑ t ∈ I, A t * (F t 0 ^ 2 + F t 1 ^ 2) :=
    Finset.sum_nonneg fun t _ => mul_nonneg (hA0 t) (by positivity)
  have h8 : 0 ≤ q * b.stepPower τ x := le_trans (by positivity) e5
  rw [hN]
  calc τ * b.work y x ^ 2 ≤ τ * ((∑ t ∈ I, A t * (F t 0 ^ 2 + F t 1 ^ 2)) *
        ∑ t ∈ I, A t * (s 0 t ^ 2 + s 1 t ^ 2)) := mul_le_mul_of_nonneg_left e4 hτ.le
    _ = (τ / p * ∑ t ∈ I, A t * (s 0 t ^ 2 + s 1 t ^ 2)) *
        (p * ∑ t ∈ I, A t * (F t 0 ^ 2 + F t 1 ^ 2)) := by field_simp
    _ ≤ q * b.stepPower τ x * quad N b.permittivity y := mul_le_mul e5 e2 (by positivity) h8

/-- The permittivity of a mesh joined to electrodes is definite. -/
theorem permittivity_definite {N : ℕ} {elements : List (List ℕ)} {nodes : ℕ → ℕ → ℝ}
    (hve : ValidElements 2 N elements) (hnd : Nondegenerate2 elements nodes) (κ : ℕ → ℕ → ℝ) (p : ℝ)
    (hp : 0 < p) (hκ : ∀ z : ℕ → ℝ, p * (z 0 ^ 2 + z 1 ^ 2) ≤
      ∑ k ∈ Finset.range 2, ∑ l ∈ Finset.range 2, κ k l * (z k * z l)) (D' : ℕ → Prop)
    (hj : ∀ p < N, Joined 3 elements (fun q => q < N ∧ D' q) p) :
    DefiniteOn N D' (Plane.conductivity (basicMatrices2 elements nodes).W κ) := by
  intro x hx h0
  obtain ⟨F, hF⟩ := exists_fieldGradient (Plane.allLocal hnd) x
  refine C74_poisson2 hve hnd 1 one_ne_zero D' hj x hx ?_
  have e1 : poissonMatrix 2 (basicMatrices2 elements nodes).W 1 =
      Plane.conductivity (basicMatrices2 elements nodes).W fun k l => if k = l then 1 else 0 := by
    funext r s
    simp [poissonMatrix, Plane.conductivity, Finset.sum_range_succ]
  rw [quad_eq_form, form_conductivity2 hve hnd κ x x F F hF hF] at h0
  rw [e1, quad_eq_form, form_conductivity2 hve hnd _ x x F F hF hF]
  unfold conduction sumElements at *
  have k1 : p * ∑ t ∈ Finset.range elements.length, area (vertices nodes (elements.getD t [])) *
      ∑ k ∈ Finset.range 2, ∑ l ∈ Finset.range 2, (if k = l then 1 else 0) * (F t k * F t l) ≤ 0 := by
    refine le_trans ?_ h0.le
    rw [Finset.mul_sum]
    refine Finset.sum_le_sum fun t _ => ?_
    have hA : 0 ≤ area (vertices nodes (elements.getD t [])) := by simp only [area]; positivity
    have := mul_le_mul_of_nonneg_left (hκ (F t)) hA
    refine le_trans (le_of_eq ?_) this
    simp [Finset.sum_range_succ]
    ring
  have k2 : 0 ≤ ∑ t ∈ Finset.range elements.length, area (vertices nodes (elements.getD t [])) *
      ∑ k ∈ Finset.range 2, ∑ l ∈ Finset.range 2, (if k = l then 1 else 0) * (F t k * F t l) := by
    refine Finset.sum_nonneg fun t _ => ?_
    have hA : 0 ≤ area (vertices nodes (elements.getD t [])) := by simp only [area]; positivity
    refine mul_nonneg hA ?_
    simp [Finset.sum_range_succ]
    nlinarith [mul_self_nonneg (F t 0), mul_self_nonneg (F t 1)]
  exact le_antisymm (by by_contra hlt; push Not at hlt; nlinarith) k2

/-- C117: piezoelectric bodies on triangular meshes, with contact given by a slope law and no surface charges.
Runs with any time step follow the motion. -/
theorem C117_body {V : Type} (e : CoupledEngine ℝ) (D D' : ℕ → Prop) [DecidablePred D] [DecidablePred D']
    (g : ℕ → ℝ) (he : Piezoelectric e D D' g) {elements : List (List ℕ)} {nodes : ℕ → ℕ → ℝ}
    (hve : ValidElements 2 e.first.ops.nodesCount elements) (hnd : Nondegenerate2 elements nodes)
    (mu lam theta zeta : ℝ) (hmu : 0 ≤ mu) (hlam : 0 ≤ lam) (htheta : 0 < theta) (hzeta : 0 ≤ zeta)
    (hel : e.first.ops.elasticity =
      Plane.constitutive e.first.ops.nodesCount (basicMatrices2 elements nodes).W mu lam)
    (hvis : e.first.ops.viscosity =
      Plane.constitutive e.first.ops.nodesCount (basicMatrices2 elements nodes).W theta zeta)
    (hh : ∀ p < e.first.ops.nodesCount,
      Held elements (fun q => q < e.first.ops.nodesCount ∧ D q ∧ D (e.first.ops.nodesCount + q)) p)
    (κ : ℕ → ℕ → ℝ) (hsym : κ 0 1 = κ 1 0) (p : ℝ) (hp : 0 < p)
    (hκ : ∀ z : ℕ → ℝ, p * (z 0 ^ 2 + z 1 ^ 2) ≤
      ∑ k ∈ Finset.range 2, ∑ l ∈ Finset.range 2, κ k l * (z k * z l))
    (hper : e.first.ops.permittivity = Plane.conductivity (basicMatrices2 elements nodes).W κ)
    (hj : ∀ p < e.first.ops.nodesCount, Joined 3 elements (fun q => q < e.first.ops.nodesCount ∧ D' q) p)
    (slope : ℝ) (hslope : 0 ≤ slope) (d : ContactData ℝ) (hd2 : d.variableDimension = 2)
    (hn : ∀ s ∈ d.surfaces, ∀ node ∈ s.edge, node < e.first.ops.nodesCount)
    (hap : ContactApart e.first.ops.nodesCount D d) (data : SolverState ℝ → ContactData ℝ)
    (hdata : ∀ S, (data S).variableDimension = 2 ∧ (data S).nodes = d.nodes ∧
      (data S).surfaces = d.surfaces)
    (impl : SolverState ℝ → (ℕ → ℝ) → ℕ → ℝ)
    (hsolve : ∀ S guess, e.first.solve S guess =
      solverSolve (impl S) e.first.ops.nodesCount 2 e.first.boundaries guess)
    (hs : ∀ (S : SolverState ℝ) (guess : ℕ → ℝ) (var : Variables ℝ) (dt : ℝ), 0 < dt →
      var.timeStep = some dt →
      StatementKind.quasistaticVelocityWithPiezoelectric.update e.first.ops e.first.boundaries var =
        .ok S.system →
      Minimises (fun y => costFunctional Real.sqrt (frictionless (slopePotential slope)) (data S)
        (2 * e.first.ops.nodesCount) S.system.lhs S.system.rhs ⟨2 * e.first.ops.nodesCount, y⟩)
        (impl S guess))
    (hs' : ∀ (S : SolverState ℝ) (guess : ℕ → ℝ) (var : Variables ℝ) (dt : ℝ), 0 < dt →
      var.timeStep = some dt →
      StatementKind.piezoelectric.update e.second.ops e.second.boundaries var = .ok S.system →
      Solves e.second.ops.nodesCount S.system (e.second.solve S guess))
    (fuel : ℕ) (T l : ℝ) (hT : 0 ≤ T) (hl : 0 ≤ l)
    (hf : ∀ s ∈ Set.Icc 0 T, ∀ t ∈ Set.Icc 0 T, ∀ r < 2 * e.first.ops.nodesCount,
      |e.first.ops.force s r - e.first.ops.force t r| ≤ l * |s - t|)
    (u₀ : ℕ → ℕ → ℝ) (φ₀ : ℕ → ℝ) :
    let b := piezoBody e D D' g fun y => contactCostFunctional Real.sqrt
      (frictionless (slopePotential slope)) d ⟨2 * e.first.ops.nodesCount, y⟩
    ∃ (u v φ : ℝ → ℕ → ℝ) (C : ℝ), b.Motion e.first.ops.force T u v φ ∧
      (∀ r < 2 * e.first.ops.nodesCount, u 0 r = State.flatten e.first.grid u₀ r) ∧
      (∀ u' v' φ', b.Motion e.first.ops.force T u' v' φ' →
        (∀ r < 2 * e.first.ops.nodesCount, u' 0 r = State.flatten e.first.grid u₀ r) →
        ∀ t ∈ Set.Icc 0 T, (∀ r < 2 * e.first.ops.nodesCount, u' t r = u t r ∧ v' t r = v t r) ∧
          ∀ p < e.first.ops.nodesCount, φ' t p = φ t p) ∧
      ∀ (a : Engine.Arguments ℝ) (first second : SolverState ℝ) (store : ProductStore ℝ V)
        (rs : List (State ℝ)) (r : CoupledEngine.Run ℝ V),
        a.initialDisplacement = u₀ → first.currentTime = 0 →
        0 < first.timeStep → second.timeStep = first.timeStep →
        e.solve fuel a φ₀ first second store = .ok (rs, r) →
        ∀ s ∈ rs, s.time ≤ T →
          Real.sqrt (quad (2 * e.first.ops.nodesCount) e.first.ops.elasticity
            fun i => State.flatten e.first.grid s.displacement i - u s.time i) ≤ first.timeStep * C ∧
          (0 < s.time → ∃ ϕ, s.scalar = .potential ϕ ∧
            b.distance (State.flatten e.first.grid s.displacement) ϕ (u s.time) (φ s.time) ≤
              first.timeStep * C) := by
  intro b
  obtain ⟨-, o2, -, -, -⟩ := C71_operators2 hve hnd 0 mu lam theta zeta 0 le_rfl hmu hlam
    htheta.le hzeta
  obtain ⟨-, o3, -, -, -⟩ := C71_operators2 hve hnd 0 theta zeta mu lam 0 le_rfl htheta.le hzeta hmu hlam
  rw [← hel] at o2
  rw [← hvis] at o3
  have hdef : DefiniteOn (2 * e.first.ops.nodesCount) D e.first.ops.viscosity := by
    rw [hvis]; exact C74_elastic2 hve hnd theta zeta htheta hzeta D hh
  obtain ⟨-, c2, c3, -⟩ := C63_permittivity hve hnd κ
  have o4 : StoresEnergy e.first.ops.nodesCount e.first.ops.permittivity := by
    rw [hper]
    refine ⟨c2 fun k hk l hl => ?_, fun x => ?_⟩
    · interval_cases k <;> interval_cases l <;> simp [hsym]
    · rw [quad_eq_form]
      exact c3 (fun z => le_trans (by positivity) (hκ z)) x
  have hdef' : DefiniteOn e.first.ops.nodesCount D' e.first.ops.permittivity := by
    rw [hper]; exact permittivity_definite hve hnd κ p hp hκ D' hj
  have hJ : ConvexVec b.contact :=
    C48_contact_convex Real.sqrt isSqrt_real _ d (fun s _ sn st =>
      C48_density_convex _ _ _ _ _ _ (C47_convex slope sn d.dt hslope)) _
  have hJn : DependsOn (2 * e.first.ops.nodesCount) b.contact := by
    have := contactCost_dependsOn (slopePotential slope) d e.first.ops.nodesCount (by omega) hn
    rw [hd2] at this
    exact this
  have hb : b.Sound := ⟨o3, hdef, o2, o4, hdef', hJ, hJn⟩
  have hcs : ∀ dt, 0 < dt → ContactSolve e.first (2 * e.first.ops.nodesCount) D dt b.contact := by
    intro dt hdt
    have := C105_law e.first D d (by omega) (by rw [hd2, he.first]; rfl) he.boundaries
      (by rw [hd2]; exact he.supports) dt (by
        rw [hd2, he.first]
        exact fun var lhs hvar h => quasistatic_lhs e.first.ops var lhs dt hdt hvar h o3 hdef o2 |>.1)
      (slopePotential slope) (fun _ _ _ _ _ => rfl) (fun b c => C47_convex slope b c hslope) hn hap data
      (by rw [hd2]; exact hdata) impl (by rw [hd2]; exact hsolve) (by
        rw [hd2, he.first]
        exact fun S guess var hvar h => hs S guess var dt hdt hvar h)
    rw [hd2] at this
    exact this
  have hcs' : ∀ dt, 0 < dt → ExactSolve e.second e.first.ops.nodesCount dt := by
    intro dt hdt S guess var hvar h
    rw [he.second] at h
    have := hs' S guess var dt hdt hvar h
    rwa [he.ops] at this
  obtain ⟨u, v, φ, C, hm, h0, hC⟩ := C117_converges (V := V) e D D' g he _ hb fuel T l hT hl hf hcs
    hcs' u₀ φ₀
  exact ⟨u, v, φ, C, hm, h0, fun u' v' φ' hm' h0' => C117_unique hb hm' hm fun r hr =>
    (h0' r hr).trans (h0 r hr).symm, hC⟩

/-- C117: solvers as required above exist: there are minimisers in every time step, and the systems of the
potential have solutions. -/
theorem C117_solver (ops : Operators ℝ)
    {elements : List (List ℕ)} {nodes : ℕ → ℕ → ℝ} (hve : ValidElements 2 ops.nodesCount elements)
    (hnd : Nondegenerate2 elements nodes)
    (mu lam theta zeta : ℝ) (hmu : 0 ≤ mu) (hlam : 0 ≤ lam) (htheta : 0 < theta) (hzeta : 0 ≤ zeta)
    (hel : ops.elasticity = Plane.constitutive ops.nodesCount (basicMatrices2 elements nodes).W mu lam)
    (hvis : ops.viscosity = Plane.constitutive ops.nodesCount (basicMatrices2 elements nodes).W theta zeta)
    (κ : ℕ → ℕ → ℝ) (p : ℝ) (hp : 0 < p)
    (hκ : ∀ z : ℕ → ℝ, p * (z 0 ^ 2 + z 1 ^ 2) ≤
      ∑ k ∈ Finset.range 2, ∑ l ∈ Finset.range 2, κ k l * (z k * z l))
    (hper : ops.permittivity = Plane.conductivity (basicMatrices2 elements nodes).W κ)
    (bs bs' : List (CondBoundary ℝ)) (D D' : ℕ → Prop) [DecidablePred D] [DecidablePred D'] (g : ℕ → ℝ)
    (hv : ValidBoundaries ops.nodesCount bs) (hd : DirichletData ops.nodesCount 2 bs D fun _ => 0)
    (hv' : ValidBoundaries ops.nodesCount bs') (hd' : DirichletData ops.nodesCount 1 bs' D' g)
    (hh : ∀ p < ops.nodesCount,
      Held elements (fun q => q < ops.nodesCount ∧ D q ∧ D (ops.nodesCount + q)) p)
    (hj : ∀ p < ops.nodesCount, Joined 3 elements (fun q => q < ops.nodesCount ∧ D' q) p)
    (slope : ℝ) (hslope : 0 ≤ slope) (data : SolverState ℝ → ContactData ℝ)
    (hdata : ∀ S, (data S).variableDimension = 2) :
    (∃ impl : SolverState ℝ → (ℕ → ℝ) → ℕ → ℝ, ∀ (S : SolverState ℝ) (guess : ℕ → ℝ) (var : Variables ℝ)
      (dt : ℝ), 0 < dt → var.timeStep = some dt →
      StatementKind.quasistaticVelocityWithPiezoelectric.update ops bs var = .ok S.system →
      Minimises (fun y => costFunctional Real.sqrt (frictionless (slopePotential slope)) (data S)
        (2 * ops.nodesCount) S.system.lhs S.system.rhs ⟨2 * ops.nodesCount, y⟩) (impl S guess)) ∧
    ∃ solve : SolverState ℝ → (ℕ → ℝ) → ℕ → ℝ, ∀ (S : SolverState ℝ) (guess : ℕ → ℝ) (var : Variables ℝ)
      (dt : ℝ), 0 < dt → var.timeStep = some dt →
      StatementKind.piezoelectric.update ops bs' var = .ok S.system →
      Solves ops.nodesCount S.system (solve S guess) := by
  classical
  obtain ⟨-, o2, -, -, -⟩ := C71_operators2 hve hnd 0 mu lam theta zeta 0 le_rfl hmu hlam
    htheta.le hzeta
  obtain ⟨-, o3, -, -, -⟩ := C71_operators2 hve hnd 0 theta zeta mu lam 0 le_rfl htheta.le hzeta hmu hlam
  rw [← hel] at o2
  rw [← hvis] at o3
  have hdef : DefiniteOn (2 * ops.nodesCount) D ops.viscosity := by
    rw [hvis]; exact C74_elastic2 hve hnd theta zeta htheta hzeta D hh
  constructor
  · refine ⟨fun S _ => if h : ∃ x, Minimises (fun y => costFunctional Real.sqrt
        (frictionless (slopePotential slope)) (data S) (2 * ops.nodesCount) S.system.lhs S.system.rhs
        ⟨2 * ops.nodesCount, y⟩) x then h.choose else fun _ => 0, fun S guess var dt hdt hvar hu => ?_⟩
    have hex : ∃ x, Minimises (fun y => costFunctional Real.sqrt
        (frictionless (slopePotential slope)) (data S) (2 * ops.nodesCount) S.system.lhs S.system.rhs
        ⟨2 * ops.nodesCount, y⟩) x := by
      obtain ⟨lhs, rhs, h2, -, h3⟩ := update_eliminated _ _ _ _ _ hu
      have h3 : S.system = applyDirichlet ops.nodesCount 2 bs ⟨lhs, rhs⟩ := h3
      obtain ⟨x, hx, -⟩ := C89_unique_minimiser (frictionless (slopePotential slope)) (data S)
        (by rw [hdata]; norm_num) (fun s _ sn st =>
          C48_density_convex _ _ _ _ _ _ (C47_convex slope sn _ hslope)) (2 * ops.nodesCount) S.system
        (by
          rw [h3]
          exact C13_positive ops.nodesCount 2 bs ⟨lhs, rhs⟩ D (fun _ => 0) hv hd
            (quasistatic_lhs ops var lhs dt hdt hvar h2 o3 hdef o2).2)
      exact ⟨x, hx⟩
    beta_reduce
    rw [dif_pos hex]
    exact hex.choose_spec
  · refine ⟨fun S _ => if h : ∃ x, Solves ops.nodesCount S.system x then h.choose else fun _ => 0,
      fun S guess var dt hdt hvar hu => ?_⟩
    obtain ⟨lhs, rhs, h2, -, h3⟩ := update_eliminated _ _ _ _ _ hu
    have h3 : S.system = applyDirichlet ops.nodesCount 1 bs' ⟨lhs, rhs⟩ := h3
    obtain rfl : ops.permittivity = lhs := by
      simpa [updateLhs] using h2
    have hdl : DefiniteOn (1 * ops.nodesCount) D' ops.permittivity := by
      rw [Nat.one_mul, hper]
      exact permittivity_definite hve hnd κ p hp hκ D' hj
    obtain ⟨x, hx, -⟩ := C74_definite ops.nodesCount 1 bs' ⟨_, rhs⟩ D' g hv' hd' hdl
    rw [Nat.one_mul, ← h3] at hx
    have hex : ∃ x, Solves ops.nodesCount S.system x := ⟨x, hx⟩
    beta_reduce
    rw [dif_pos hex]
    exact hex.choose_spec

/-! ### The held square between two electrodes -/

/-- The square of C106 with the piezoelectric and dielectric coefficients of
`examples/example_piezo_quasistatic.py`. -/
noncomputable def chargedSquareOps : Operators ℝ :=
  { heldSquareOps with
    permittivity := Plane.conductivity (basicMatrices2 heldSquareElements heldSquareNodes).W fun k l =>
      if k = l then (if k = 0 then 8.3 else 8.8) else 0
    piezoelectricity := Plane.piezoelectricTensor 4 (basicMatrices2 heldSquareElements heldSquareNodes).W
      fun a k l => if a = 0 then (if k = 0 then (if l = 1 then -0.59 else 0) else if l = 0 then -0.61 else 0)
        else if k = 0 then (if l = 0 then -0.59 else 0) else if l = 1 then 1.14 else 0 }

/-- The upper left corner has the potential 0, the lower right one 20. -/
def electrodes : List (CondBoundary ℝ) := [⟨.list [3], fun _ => 0⟩, ⟨.list [1], fun _ => 20⟩]

theorem electrodes_data : ValidBoundaries 4 electrodes ∧
    DirichletData 4 1 electrodes (fun r => r = 3 ∨ r = 1) (fun r => if r = 1 then 20 else 0) := by
  refine ⟨?_, ⟨fun r => ⟨?_, ?_⟩, ?_⟩⟩
  · intro b hb
    simp only [electrodes, List.mem_cons, List.not_mem_nil, or_false] at hb
    rcases hb with rfl | rfl
    · exact ⟨by intro v hv; simp [nodesOf] at hv; omega, fun i h => by cases h; simp⟩
    · exact ⟨by intro v hv; simp [nodesOf] at hv; omega, fun i h => by cases h; simp⟩
  · rintro (rfl | rfl)
    · exact ⟨0, ⟨.list [3], fun _ => 0⟩, by simp [electrodes], 0, by norm_num, 0, 3, by simp [nodesOf], by omega, rfl⟩
    · exact ⟨20, ⟨.list [1], fun _ => 20⟩, by simp [electrodes], 0, by norm_num, 0, 1, by simp [nodesOf], by omega, rfl⟩
  · rintro ⟨v, b, hb, k, hk, j, n, hn, hr, hv⟩
    obtain rfl : k = 0 := by omega
    simp only [electrodes, List.mem_cons, List.not_mem_nil, or_false] at hb
    rcases hb with rfl | rfl
    · rcases j with _ | j
      · simp [nodesOf] at hn; omega
      · simp [nodesOf] at hn
    · rcases j with _ | j
      · simp [nodesOf] at hn; omega
      · simp [nodesOf] at hn
  · rintro x v ⟨b, hb, k, hk, j, n, hn, hr, hv⟩
    obtain rfl : k = 0 := by omega
    simp only [electrodes, List.mem_cons, List.not_mem_nil, or_false] at hb
    rcases hb with rfl | rfl
    · rcases j with _ | j
      · simp [nodesOf] at hn
        rw [hv, if_neg (by omega)]
      · simp [nodesOf] at hn
    · rcases j with _ | j
      · simp [nodesOf] at hn
        rw [hv, if_pos (by omega)]
      · simp [nodesOf] at hn

theorem charged_joined : ∀ p < 4, Joined 3 heldSquareElements (fun q => q < 4 ∧ (q = 3 ∨ q = 1)) p := by
  have h1 : Joined 3 heldSquareElements (fun q => q < 4 ∧ (q = 3 ∨ q = 1)) 1 := .fixed _ (by norm_num)
  have h3 : Joined 3 heldSquareElements (fun q => q < 4 ∧ (q = 3 ∨ q = 1)) 3 := .fixed _ (by norm_num)
  have h0 := Joined.element [0, 1, 2] (by simp [heldSquareElements]) 1 0 (by norm_num) (by norm_num) h1
  have h2 := Joined.element [0, 1, 2] (by simp [heldSquareElements]) 1 2 (by norm_num) (by norm_num) h1
  intro p hp
  interval_cases p
  exacts [h0, h1, h2, h3]

theorem charged_permittivity (z : ℕ → ℝ) : 8.3 * (z 0 ^ 2 + z 1 ^ 2) ≤
    ∑ k ∈ Finset.range 2, ∑ l ∈ Finset.range 2,
      (fun k l : ℕ => if k = l then (if k = 0 then (8.3 : ℝ) else 8.8) else 0) k l * (z k * z l) := by
  simp [Finset.sum_range_succ]
  nlinarith [mul_self_nonneg (z 0), mul_self_nonneg (z 1)]

/-- All hypotheses of `C117_body` are met by the square: its runs, which start with the potential zero,
converge to the motion as the time steps get small. In steps of at most `1 / 100`, the coupling is at most
`1 / 1000`. -/
example {V : Type} (store : ProductStore ℝ V) (solver : SolverState ℝ) (h0 : solver.currentTime = 0) :
    ∃ e : CoupledEngine ℝ, e.first.ops = chargedSquareOps ∧
    Piezoelectric e (fun r => r < 2 * 4 ∧ 2 ≤ r % 4) (fun r => r = 3 ∨ r = 1)
      (fun r => if r = 1 then 20 else 0) ∧
    ∀ b : PiezoBody, b = piezoBody e (fun r => r < 2 * 4 ∧ 2 ≤ r % 4) (fun r => r = 3 ∨ r = 1)
        (fun r => if r = 1 then 20 else 0) (fun y => contactCostFunctional Real.sqrt
          (frictionless (slopePotential 10)) heldSquareContact ⟨8, y⟩) →
    (∀ dt, 0 < dt → dt ≤ 1 / 100 → b.Coupling dt (1 / 1000)) ∧
    ∃ (u v φ : ℝ → ℕ → ℝ) (C : ℝ), b.Motion chargedSquareOps.force 1 u v φ ∧
      ∀ (dt : ℝ) (a : Engine.Arguments ℝ), 0 < dt → a.initialDisplacement = (fun _ _ => 0) →
        ∃ (rs : List (State ℝ)) (r : CoupledEngine.Run ℝ V),
          e.solve 11 a (fun _ => 0) { solver with timeStep := dt } { solver with timeStep := dt } store =
            .ok (rs, r) ∧
          ∀ s ∈ rs, s.time ≤ 1 → 0 < s.time → ∃ ϕ, s.scalar = .potential ϕ ∧
            b.distance (State.flatten e.first.grid s.displacement) ϕ (u s.time) (φ s.time) ≤ dt * C := by
  obtain ⟨⟨impl, himpl⟩, solve, hsolve⟩ := C117_solver chargedSquareOps heldSquare_mesh.1 heldSquare_mesh.2
    4 5 2 3 (by norm_num) (by norm_num) (by norm_num) (by norm_num) rfl rfl _ 8.3 (by norm_num)
    charged_permittivity rfl heldSquareBoundaries electrodes _ _ _ heldSquare_boundaries.1
    heldSquare_boundaries.2 electrodes_data.1 electrodes_data.2 heldSquare_held charged_joined 10
    (by norm_num) (fun _ => heldSquareContact) (fun _ => rfl)
  let e : CoupledEngine ℝ :=
    { first := { grid := ⟨4, 2, heldSquareNodes⟩, cls := .quasistaticSchur
                 kind := .quasistaticVelocityWithPiezoelectric
                 ops := chargedSquareOps, boundaries := heldSquareBoundaries
                 solve := fun S guess => solverSolve (impl S) 4 2 heldSquareBoundaries guess }
      second := { grid := ⟨4, 2, heldSquareNodes⟩, cls := .quasistaticSchur, kind := .piezoelectric
                  ops := chargedSquareOps, boundaries := electrodes, solve := solve }
      stateKind := .piezoelectric, exceeds := fun _ _ _ _ => true }
  have he : Piezoelectric e (fun r => r < 2 * 4 ∧ 2 ≤ r % 4) (fun r => r = 3 ∨ r = 1)
      (fun r => if r = 1 then 20 else 0) :=
    ⟨rfl, rfl, rfl, rfl, rfl, heldSquare_boundaries.1, heldSquare_boundaries.2, electrodes_data.1,
      electrodes_data.2⟩
  obtain ⟨u, v, φ, C, hm, -, -, hC⟩ := C117_body (V := V) e _ _ _ he heldSquare_mesh.1 heldSquare_mesh.2
    4 5 2 3 (by norm_num) (by norm_num) (by norm_num) (by norm_num) rfl rfl heldSquare_held
    _ (by norm_num) 8.3 (by norm_num) charged_permittivity rfl charged_joined 10 (by norm_num)
    heldSquareContact rfl
    (by
      intro s hs node hn
      simp only [heldSquareContact, segmentData, List.mem_singleton] at hs
      subst hs
      change node < 4
      rcases List.mem_pair.1 hn with h | h <;> omega)
    (by
      intro s hs node hn i hi
      simp only [heldSquareContact, segmentData, List.mem_singleton] at hs
      subst hs
      change ¬ (i * 4 + node < 2 * 4 ∧ 2 ≤ (i * 4 + node) % 4)
      rcases List.mem_pair.1 hn with h | h <;> omega)
    (fun _ => heldSquareContact) (fun _ => ⟨rfl, rfl, rfl⟩) impl (fun _ _ => rfl) himpl hsolve 11 1 8
    (by norm_num) (by norm_num)
    (by
      intro s _ t _ r hr
      have hr' : (r : ℝ) + 1 ≤ 8 := by
        have : r < 8 := hr
        have : r + 1 ≤ 8 := this
        exact_mod_cast this
      change |s * ((r : ℝ) + 1) - t * (r + 1)| ≤ 8 * |s - t|
      rw [← sub_mul, abs_mul, abs_of_nonneg (by positivity : (0 : ℝ) ≤ r + 1), mul_comm]
      exact mul_le_mul_of_nonneg_right hr' (abs_nonneg _))
    (fun _ _ => 0) fun _ => 0
  refine ⟨e, rfl, he, fun b hb => ⟨fun dt hdt hle => ?_, u, v, φ, C, by rw [hb]; exact hm,
    fun dt a hdt h1 => ?_⟩⟩
  · refine C117_coupling heldSquare_mesh.1 heldSquare_mesh.2 4 5 2 3 (by norm_num) (by norm_num)
      (by norm_num) (by norm_num) (fun a k l => if a = 0 then (if k = 0 then (if l = 1 then -0.59 else 0) else
        if l = 0 then -0.61 else 0) else if k = 0 then (if l = 0 then -0.59 else 0) else
        if l = 1 then 1.14 else 0) (by intro k hk; interval_cases k <;> norm_num) _ 8.3 (by norm_num)
      charged_permittivity b (by rw [hb]; rfl) (by rw [hb]; rfl) (by rw [hb]; rfl) (by rw [hb]; rfl)
      (by rw [hb]; rfl) (by rw [hb]; rfl) dt _ hdt (by norm_num) ?_
    simp [Finset.sum_range_succ]
    norm_num
    linarith
  · obtain ⟨rs, r, h⟩ := C117_runs e rfl rfl (Or.inr rfl) (Or.inr rfl) 11 le_rfl a (fun _ => 0)
      { solver with timeStep := dt } { solver with timeStep := dt } store
    refine ⟨rs, r, h, fun s hs hT hlt => ?_⟩
    rw [hb]
    exact (hC a { solver with timeStep := dt } { solver with timeStep := dt } store rs r h1 h0 hdt rfl h s hs
      hT).2 hlt

end Conmech
