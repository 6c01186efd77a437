import Verif.Props.CreepModes
import Verif.Props.PiezoRuns
import Verif.Props.SpaceWaves
/-!
C123: every shape of the temperature of a body decays for itself.
-/
namespace Conmech
open Spec

section
variable {K : Type} [Field K] [LinearOrder K] [IsStrictOrderedRing K] {V : Type}

/-- C123: when the body is not heated by its motion and its temperature is a sum of shapes whose conducted heat is
`κ i` times their stored heat, added to a steady temperature, then so it is in every returned state, and the amplitude
of every shape is divided by `1 + κ i dt` in every step, whatever the mechanical part does. -/
theorem C123_decay (e : CoupledEngine K) (hk : e.second.kind = .temperature)
    (hst : e.stateKind = .temperature) {d : ℕ} (hdim : e.second.ops.dimension = d)
    (D : ℕ → Prop) [DecidablePred D] (g : ℕ → K)
    (hb : ValidBoundaries e.second.ops.nodesCount e.second.boundaries)
    (hd : DirichletData e.second.ops.nodesCount 1 e.second.boundaries D g)
    (hM : StoresEnergy e.second.ops.nodesCount e.second.ops.acceleration)
    (hMd : DefiniteOn e.second.ops.nodesCount D e.second.ops.acceleration)
    (hC : StoresEnergy e.second.ops.nodesCount e.second.ops.thermalConductivity)
    (hE : ∀ w, ∀ p < e.second.ops.nodesCount,
      act (d * e.second.ops.nodesCount) e.second.ops.thermalExpansion w p = 0)
    (r₀ : ℕ → K) (hr₀ : ∀ p < e.second.ops.nodesCount, D p → r₀ p = g p)
    (h₀ : ∀ p < e.second.ops.nodesCount, ¬ D p →
      act e.second.ops.nodesCount e.second.ops.thermalConductivity r₀ p = 0)
    (m : ℕ) (κ : ℕ → K) (φ : ℕ → ℕ → K) (hκ : ∀ i < m, 0 ≤ κ i)
    (hφ : ∀ i < m, ModeOf e.second.ops.nodesCount D e.second.ops.acceleration (fun _ _ => 0)
      e.second.ops.thermalConductivity (κ i) 0 (φ i))
    (fuel : ℕ) (a : Engine.Arguments K) (θ₀ : ℕ → K) (first second : SolverState K)
    (hc : first.currentTime = 0) (hts : second.timeStep = first.timeStep) (hdt : 0 < first.timeStep)
    (hs : ExactSolve e.second e.second.ops.nodesCount first.timeStep) (q : ℕ → K)
    (hq : ∀ p < e.second.ops.nodesCount, θ₀ p = r₀ p + superposed m φ q p) (store : ProductStore K V)
    (rs : List (State K)) (r : CoupledEngine.Run K V)
    (h : e.solve fuel a θ₀ first second store = .ok (rs, r)) (s : State K) (hmem : s ∈ rs) :
    ∃ (j : ℕ) (θ : ℕ → K), s.time = j * first.timeStep ∧ s.scalar = .temperature θ ∧
      ∀ p < e.second.ops.nodesCount, θ p = r₀ p +
        superposed m φ (fun i => q i / (1 + κ i * first.timeStep) ^ j) p := by
  set N := e.second.ops.nodesCount with hN
  set dt := first.timeStep with hdt'
  obtain ⟨x, _, ⟨j, θ, h1, h2, h3⟩, rfl⟩ := coupled_invariant e fuel a θ₀ first second store hc hts
    (fun x => ∃ (j : ℕ) (θ : ℕ → K), x.state.time = j * dt ∧ x.state.scalar = .temperature θ ∧
      ∀ p < N, θ p = r₀ p + superposed m φ (fun i => q i / (1 + κ i * dt) ^ j) p)
    (fun c s h0 hb => by
      obtain ⟨_, _, ht, _, _, h4, _⟩ := coupled_between_start e a θ₀ first second store hc hts c s h0
      refine ⟨0, c.first.tVector, by simpa using ht, ?_, ?_⟩
      · rw [hb.scalar, hst]; rfl
      · rw [h4 hst]; simpa using hq)
    (fun x x' hbt hx hstep => by
      obtain ⟨j, θ, ht, hθ, hsum⟩ := hx
      obtain ⟨y, y', h1, h2, hdir, hrows⟩ := heat_step_rows e hk hst hdim D g hb hd fuel _ hdt.ne' hs x x'
        hbt hstep
      rw [hθ] at h1
      cases h1
      obtain ⟨_, _, ht', _⟩ := coupled_between_step e fuel _ x x' hbt hstep
      refine ⟨j + 1, y', by rw [ht', ht]; push_cast; ring, h2, fun p hp => ?_⟩
      have hback : ∀ i, θ i + dt * ((y' i - θ i) / dt) = y' i := fun i => by
        have := hdt.ne'
        field_simp
        ring
      have := decay_step hM hMd hC hκ hφ hdt (f := fun _ => 0) h₀ _ hsum (w := fun i => (y' i - θ i) / dt)
        (fun p hp hD => ?_) (fun p hp hD => ?_) p hp
      · rw [hback] at this
        rw [this]
        simp only [div_div, ← pow_succ]
      · have h5 : superposed m φ (fun i => q i / (1 + κ i * dt) ^ j) p = 0 := Finset.sum_eq_zero fun i hi => by
          rw [(hφ i (Finset.mem_range.1 hi)).still p hp hD, mul_zero]
        rw [hdir p hp hD, hsum p hp, h5, hr₀ p hp hD]
        simp
      · simp only [hback]
        rw [hrows p hp hD, hE _ p hp, neg_zero]) rs r h s hmem
  exact ⟨j, θ, h1, h2, h3⟩

end

section
variable {V : Type}

/-- C74: the systems of the heat equation. All of them are uniquely solvable on bodies of any dimension. -/
theorem C74_heat {N : ℕ} (ops : Operators ℝ) (hN : ops.nodesCount = N) (bs : List (CondBoundary ℝ)) (D : ℕ → Prop)
    [DecidablePred D] (g : ℕ → ℝ) (hb : ValidBoundaries N bs) (hd : DirichletData N 1 bs D g)
    (hM : StoresEnergy N ops.acceleration) (hMd : DefiniteOn N D ops.acceleration)
    (hC : StoresEnergy N ops.thermalConductivity) (var : Variables ℝ) (dt : ℝ) (hdt : 0 < dt)
    (hvar : var.timeStep = some dt) (S : System ℝ) (h : StatementKind.temperature.update ops bs var = .ok S) :
    UniquelySolvable N S := by
  subst hN
  rw [← Nat.one_mul ops.nodesCount]
  refine update_solvable .temperature ops bs var S 1 rfl D g hb hd (fun lhs hl => ?_) h
  rw [Nat.one_mul]
  obtain rfl : (fun r s => 1 / dt * ops.acceleration r s + ops.thermalConductivity r s) = lhs := by
    simpa [updateLhs, hvar, required, bind, Except.bind, pure, Except.pure] using hl
  intro x hx h0
  have e1 : quad ops.nodesCount (fun r s => 1 / dt * ops.acceleration r s + ops.thermalConductivity r s) x =
      1 / dt * quad ops.nodesCount ops.acceleration x + quad ops.nodesCount ops.thermalConductivity x := by
    simp only [quad_eq_act, act, Finset.mul_sum, ← Finset.sum_add_distrib]
    exact Finset.sum_congr rfl fun r _ => Finset.sum_congr rfl fun s _ => by ring
  have h1 := hM.nonneg x
  have h2 := hC.nonneg x
  have h3 : 0 ≤ 1 / dt * quad ops.nodesCount ops.acceleration x := by positivity
  rw [e1] at h0
  have h4 : 1 / dt * quad ops.nodesCount ops.acceleration x = 0 := by linarith
  exact hMd x hx ((mul_eq_zero.1 h4).resolve_left (by positivity))

/-- C123: there is exactly one steady temperature, if the conductivity is definite. -/
theorem C123_steady {N : ℕ} {C : ℕ → ℕ → ℝ} (D : ℕ → Prop) [DecidablePred D] (g : ℕ → ℝ)
    (bs : List (CondBoundary ℝ)) (hb : ValidBoundaries N bs) (hd : DirichletData N 1 bs D g)
    (hCd : DefiniteOn N D C) :
    ∃ r₀ : ℕ → ℝ, ((∀ p < N, D p → r₀ p = g p) ∧ ∀ p < N, ¬ D p → act N C r₀ p = 0) ∧
      ∀ r₁ : ℕ → ℝ, (∀ p < N, D p → r₁ p = g p) → (∀ p < N, ¬ D p → act N C r₁ p = 0) → ∀ p < N, r₁ p = r₀ p := by
  obtain ⟨x, hx, -⟩ := C74_definite N 1 bs ⟨C, fun _ => 0⟩ D g hb hd (by simpa using hCd)
  have := (C12_elimination_equivalent N 1 bs ⟨C, fun _ => 0⟩ D g hb hd x).1 hx
  rw [one_mul] at this
  have hrow : ∀ p < N, ¬ D p → act N C x p = 0 := fun p hp hD => this.2 p hp hD
  refine ⟨x, ⟨this.1, hrow⟩, fun y h1 h2 p hp => ?_⟩
  refine sub_eq_zero.1 (hCd (fun i => y i - x i) (fun r hr hD => ?_) ?_ p hp)
  · rw [h1 r hr hD, this.1 r hr hD, sub_self]
  · rw [quad_eq_act]
    refine Finset.sum_eq_zero fun r hr => ?_
    have hr := Finset.mem_range.1 hr
    by_cases hD : D r
    · rw [h1 r hr hD, this.1 r hr hD, sub_self, zero_mul]
    · have := act_linear (n := N) C y x 1 (-1) r
      rw [← act_on (x := fun i => y i - x i) fun i _ => by ring, h2 r hr hD, hrow r hr hD] at this
      rw [this]; ring

/-- C123: the shapes exist. They do not depend on the time step, the mechanical part and the initial temperature, and
every run from a temperature with the prescribed values is a sum of them. -/
theorem C123_complete (e : CoupledEngine ℝ) (hk : e.second.kind = .temperature)
    (hst : e.stateKind = .temperature) {d : ℕ} (hdim : e.second.ops.dimension = d)
    (D : ℕ → Prop) [DecidablePred D] (g : ℕ → ℝ)
    (hb : ValidBoundaries e.second.ops.nodesCount e.second.boundaries)
    (hd : DirichletData e.second.ops.nodesCount 1 e.second.boundaries D g)
    (hM : StoresEnergy e.second.ops.nodesCount e.second.ops.acceleration)
    (hMd : DefiniteOn e.second.ops.nodesCount D e.second.ops.acceleration)
    (hC : StoresEnergy e.second.ops.nodesCount e.second.ops.thermalConductivity)
    (hE : ∀ w, ∀ p < e.second.ops.nodesCount,
      act (d * e.second.ops.nodesCount) e.second.ops.thermalExpansion w p = 0) :
    ∃ (m : ℕ) (κ : ℕ → ℝ) (φ : ℕ → ℕ → ℝ), (∀ i < m, 0 ≤ κ i) ∧
      (DefiniteOn e.second.ops.nodesCount D e.second.ops.thermalConductivity → ∀ i < m, 0 < κ i) ∧
      (∀ i < m, ModeOf e.second.ops.nodesCount D e.second.ops.acceleration (fun _ _ => 0)
        e.second.ops.thermalConductivity (κ i) 0 (φ i)) ∧
      ∀ r₀ : ℕ → ℝ, (∀ p < e.second.ops.nodesCount, D p → r₀ p = g p) →
      (∀ p < e.second.ops.nodesCount, ¬ D p →
        act e.second.ops.nodesCount e.second.ops.thermalConductivity r₀ p = 0) →
      ∀ θ₀ : ℕ → ℝ, (∀ p < e.second.ops.nodesCount, D p → θ₀ p = g p) →
      ∃ q : ℕ → ℝ, ∀ (fuel : ℕ) (a : Engine.Arguments ℝ) (first second : SolverState ℝ),
        first.currentTime = 0 → second.timeStep = first.timeStep → 0 < first.timeStep →
        ExactSolve e.second e.second.ops.nodesCount first.timeStep →
        ∀ (store : ProductStore ℝ V) (rs : List (State ℝ)) (r : CoupledEngine.Run ℝ V),
        e.solve fuel a θ₀ first second store = .ok (rs, r) → ∀ s ∈ rs,
        ∃ (j : ℕ) (θ : ℕ → ℝ), s.time = j * first.timeStep ∧ s.scalar = .temperature θ ∧
          ∀ p < e.second.ops.nodesCount, θ p = r₀ p +
            superposed m φ (fun i => q i / (1 + κ i * first.timeStep) ^ j) p := by
  obtain ⟨m, κ, φ, hκ, hφ, ho, hall⟩ := exists_modes hM hMd hC
  refine ⟨m, κ, φ, hκ, fun hCd => modes_positive hCd hφ hκ ho, hφ, fun r₀ hr₀ h₀ θ₀ hθ => ?_⟩
  obtain ⟨q, hq⟩ := hall (fun p => θ₀ p - r₀ p) fun p hp hD => by
    rw [hθ p hp hD, hr₀ p hp hD, sub_self]
  exact ⟨q, fun fuel a first second hc hts hdt hs store rs r h s hmem =>
    C123_decay e hk hst hdim D g hb hd hM hMd hC hE r₀ hr₀ h₀ m κ φ hκ hφ fuel a θ₀ first second hc hts hdt hs q
      (fun p hp => by rw [← hq p hp]; ring) store rs r h s hmem⟩

/-- C123: with every time step, however long, the temperatures of all late states are close to the steady one, if the
body is joined to nodes with prescribed temperature. -/
theorem C123_settles (e : CoupledEngine ℝ) (hk : e.second.kind = .temperature)
    (hst : e.stateKind = .temperature) {d : ℕ} (hdim : e.second.ops.dimension = d)
    (D : ℕ → Prop) [DecidablePred D] (g : ℕ → ℝ)
    (hb : ValidBoundaries e.second.ops.nodesCount e.second.boundaries)
    (hd : DirichletData e.second.ops.nodesCount 1 e.second.boundaries D g)
    (hM : StoresEnergy e.second.ops.nodesCount e.second.ops.acceleration)
    (hMd : DefiniteOn e.second.ops.nodesCount D e.second.ops.acceleration)
    (hC : StoresEnergy e.second.ops.nodesCount e.second.ops.thermalConductivity)
    (hCd : DefiniteOn e.second.ops.nodesCount D e.second.ops.thermalConductivity)
    (hE : ∀ w, ∀ p < e.second.ops.nodesCount,
      act (d * e.second.ops.nodesCount) e.second.ops.thermalExpansion w p = 0)
    (θ₀ : ℕ → ℝ) (hθ : ∀ p < e.second.ops.nodesCount, D p → θ₀ p = g p)
    (dt : ℝ) (hdt : 0 < dt) (hs : ExactSolve e.second e.second.ops.nodesCount dt) :
    ∃ r₀ : ℕ → ℝ, (∀ p < e.second.ops.nodesCount, D p → r₀ p = g p) ∧
      (∀ p < e.second.ops.nodesCount, ¬ D p →
        act e.second.ops.nodesCount e.second.ops.thermalConductivity r₀ p = 0) ∧
      ∀ ε > 0, ∃ T : ℝ, ∀ (fuel : ℕ) (a : Engine.Arguments ℝ) (first second : SolverState ℝ),
        first.currentTime = 0 → second.timeStep = first.timeStep → first.timeStep = dt →
        ∀ (store : ProductStore ℝ V) (rs : List (State ℝ)) (r : CoupledEngine.Run ℝ V),
        e.solve fuel a θ₀ first second store = .ok (rs, r) → ∀ s ∈ rs, T ≤ s.time →
        ∃ θ : ℕ → ℝ, s.scalar = .temperature θ ∧ ∀ p < e.second.ops.nodesCount, |θ p - r₀ p| ≤ ε := by
  obtain ⟨r₀, ⟨h1, h2⟩, -⟩ := C123_steady D g _ hb hd hCd
  obtain ⟨m, κ, φ, -, hκ, -, h⟩ := C123_complete (V := V) e hk hst hdim D g hb hd hM hMd hC hE
  obtain ⟨q, hq⟩ := h r₀ h1 h2 θ₀ hθ
  refine ⟨r₀, h1, h2, fun ε hε => ?_⟩
  obtain ⟨J, hJ⟩ := superposed_small e.second.ops.nodesCount m κ (hκ hCd) φ q hdt hε
  refine ⟨J * dt, fun fuel a first second hc hts hfd store rs r hrun s hmem hT => ?_⟩
  subst hfd
  obtain ⟨j, θ, ht, hsc, hj⟩ := hq fuel a first second hc hts hdt hs store rs r hrun s hmem
  rw [ht] at hT
  have hle : J ≤ j := by exact_mod_cast le_of_mul_le_mul_right hT hdt
  refine ⟨θ, hsc, fun p hp => ?_⟩
  rw [hj p hp, add_sub_cancel_left]
  exact hJ j hle p hp

/-- C123: an insulated body takes the same temperature everywhere, the mean of its initial temperature, weighted with
the capacity: with every time step, the temperatures of all late states are close to it. -/
theorem C123_insulated (e : CoupledEngine ℝ) (hk : e.second.kind = .temperature)
    (hst : e.stateKind = .temperature) {d : ℕ} (hdim : e.second.ops.dimension = d) (hb : e.second.boundaries = [])
    (hM : StoresEnergy e.second.ops.nodesCount e.second.ops.acceleration)
    (hMd : DefiniteOn e.second.ops.nodesCount (fun _ => False) e.second.ops.acceleration)
    (hC : StoresEnergy e.second.ops.nodesCount e.second.ops.thermalConductivity)
    (hone : ∀ p < e.second.ops.nodesCount,
      act e.second.ops.nodesCount e.second.ops.thermalConductivity (fun _ => 1) p = 0)
    (hcon : ∀ x, quad e.second.ops.nodesCount e.second.ops.thermalConductivity x = 0 →
      ∀ p < e.second.ops.nodesCount, x p = x 0)
    (hE : ∀ w, ∀ p < e.second.ops.nodesCount,
      act (d * e.second.ops.nodesCount) e.second.ops.thermalExpansion w p = 0)
    (θ₀ : ℕ → ℝ) (dt : ℝ) (hdt : 0 < dt) (hs : ExactSolve e.second e.second.ops.nodesCount dt) (mean : ℝ)
    (hmean : mean * ∑ p ∈ Finset.range e.second.ops.nodesCount, act e.second.ops.nodesCount e.second.ops.acceleration
      (fun _ => 1) p = ∑ p ∈ Finset.range e.second.ops.nodesCount, act e.second.ops.nodesCount
        e.second.ops.acceleration θ₀ p) (ε : ℝ) (hε : 0 < ε) :
    ∃ T : ℝ, ∀ (fuel : ℕ) (a : Engine.Arguments ℝ) (first second : SolverState ℝ),
      first.currentTime = 0 → second.timeStep = first.timeStep → first.timeStep = dt →
      ∀ (store : ProductStore ℝ V) (rs : List (State ℝ)) (r : CoupledEngine.Run ℝ V),
      e.solve fuel a θ₀ first second store = .ok (rs, r) → ∀ s ∈ rs, T ≤ s.time →
      ∃ θ : ℕ → ℝ, s.scalar = .temperature θ ∧ ∀ p < e.second.ops.nodesCount, |θ p - mean| ≤ ε := by
  classical
  have hv : ValidBoundaries e.second.ops.nodesCount e.second.boundaries := by rw [hb]; intro b h; cases h
  have hd : DirichletData e.second.ops.nodesCount 1 e.second.boundaries (fun _ => False) (fun _ => (0 : ℝ)) := by
    rw [hb]
    exact ⟨fun x => ⟨False.elim, by rintro ⟨v, b, hb, -⟩; cases hb⟩, by rintro x v ⟨b, hb, -⟩; cases hb⟩
  set N := e.second.ops.nodesCount with hN
  set M := e.second.ops.acceleration with hMe
  set C := e.second.ops.thermalConductivity with hCe
  obtain ⟨m, κ, φ, hκ, hφ, ho, hall⟩ := exists_modes hM hMd hC
  obtain ⟨q, hq⟩ := hall θ₀ fun _ _ h => h.elim
  -- the part that does not decay
  set ℓ : ℕ → ℝ := superposed m φ fun i => if κ i = 0 then q i else 0 with hℓ
  have hsplit : ∀ (j : ℕ) (p : ℕ), superposed m φ (fun i => q i / (1 + κ i * dt) ^ j) p = ℓ p +
      superposed m φ (fun i => (if κ i = 0 then 0 else q i) / (1 + (if κ i = 0 then 1 else κ i) * dt) ^ j) p := by
    intro j p
    simp only [hℓ, superposed, ← Finset.sum_add_distrib]
    refine Finset.sum_congr rfl fun i _ => ?_
    by_cases h : κ i = 0 <;> simp [h]
  have hflat : ∀ i < m, κ i = 0 → ∀ p < N, φ i p = φ i 0 := by
    intro i hi h0
    refine hcon _ ?_
    rw [quad_eq_act]
    exact Finset.sum_eq_zero fun r hr => by
      rw [(hφ i hi).elastic r (Finset.mem_range.1 hr) not_false, h0, zero_mul, mul_zero]
  have hℓc : ∀ p < N, ℓ p = ℓ 0 := by
    intro p hp
    refine Finset.sum_congr rfl fun i hi => ?_
    by_cases h : κ i = 0
    · rw [hflat i (Finset.mem_range.1 hi) h p hp]
    · simp [h]
  have horth : ∀ i < m, κ i ≠ 0 → bilin N M (fun _ => 1) (φ i) = 0 := by
    intro i hi h0
    have h1 : bilin N C (fun _ => 1) (φ i) = 0 := by
      rw [bilin_symm _ _ hC.symm, ← bilin_eq_act]
      exact Finset.sum_eq_zero fun r hr => by rw [hone r (Finset.mem_range.1 hr), mul_zero]
    have h2 : bilin N C (fun _ => 1) (φ i) = κ i * bilin N M (fun _ => 1) (φ i) := by
      rw [← bilin_eq_act, ← bilin_eq_act, Finset.mul_sum]
      exact Finset.sum_congr rfl fun r hr => by
        rw [(hφ i hi).elastic r (Finset.mem_range.1 hr) not_false]; ring
    exact (mul_eq_zero.1 (h2.symm.trans h1)).resolve_left h0
  have hlin : ∀ c : ℕ → ℝ, bilin N M (fun _ => 1) (superposed m φ c) =
      ∑ i ∈ Finset.range m, c i * bilin N M (fun _ => 1) (φ i) := by
    intro c
    generalize m = l
    induction l with
    | zero => simp [bilin, superposed]
    | succ l ih =>
      have h1 : superposed (l + 1) φ c = fun r => superposed l φ c r + (fun r => c l * φ l r) r := by
        funext r; exact Finset.sum_range_succ _ _
      rw [h1, bilin_add_right, ih, bilin_smul_right, Finset.sum_range_succ]
  have hlm : ∀ p < N, ℓ p = mean := by
    intro p hp
    have h1 : bilin N M (fun _ => 1) ℓ = bilin N M (fun _ => 1) θ₀ := by
      have h2 : bilin N M (fun _ => 1) θ₀ = bilin N M (fun _ => 1) (superposed m φ q) := by
        rw [← bilin_eq_act, ← bilin_eq_act]
        exact Finset.sum_congr rfl fun r _ => by rw [act_on hq]
      rw [h2, hlin, hlin]
      refine Finset.sum_congr rfl fun i hi => ?_
      by_cases h : κ i = 0
      · rw [if_pos h]
      · rw [horth i (Finset.mem_range.1 hi) h, mul_zero, mul_zero]
    have h3 : bilin N M (fun _ => 1) ℓ = ℓ 0 * bilin N M (fun _ => 1) fun _ => 1 := by
      rw [← bilin_smul_right, ← bilin_eq_act, ← bilin_eq_act]
      exact Finset.sum_congr rfl fun r _ => by rw [act_on fun i hi => (hℓc i hi).trans (mul_one (ℓ 0)).symm]
    have h4 : ∀ x, bilin N M (fun _ => 1) x = ∑ p ∈ Finset.range N, act N M x p := fun x => by
      rw [← bilin_eq_act]; exact Finset.sum_congr rfl fun r _ => one_mul _
    rw [← h4, ← h4, ← h1, h3] at hmean
    have h5 : bilin N M (fun _ => 1) (fun _ => 1) ≠ 0 := fun h0 =>
      one_ne_zero (hMd (fun _ => 1) (fun _ _ h => h.elim) h0 p hp)
    rw [hℓc p hp]
    exact (mul_right_cancel₀ h5 hmean).symm
  obtain ⟨J, hJ⟩ := superposed_small N m (fun i => if κ i = 0 then 1 else κ i) (fun i hi => by
    by_cases h : κ i = 0
    · simp [h]
    · simpa [h] using lt_of_le_of_ne (hκ i hi) (Ne.symm h)) φ (fun i => if κ i = 0 then 0 else q i) hdt hε
  refine ⟨J * dt, fun fuel a first second hc hts hfd store rs r hrun s hmem hT => ?_⟩
  subst hfd
  obtain ⟨j, θ, ht, hsc, hj⟩ := C123_decay e hk hst hdim (fun _ => False) (fun _ => 0) hv hd hM hMd hC hE (fun _ => 0)
    (fun _ _ _ => rfl) (fun p _ _ => by simp [act]) m κ φ hκ hφ fuel a θ₀ first second hc hts hdt hs q
    (fun p hp => by rw [hq p hp, zero_add]) store rs r hrun s hmem
  rw [ht] at hT
  have hle : J ≤ j := by exact_mod_cast le_of_mul_le_mul_right hT hdt
  refine ⟨θ, hsc, fun p hp => ?_⟩
  rw [hj p hp, zero_add, hsplit, hlm p hp, add_sub_cancel_left]
  exact hJ j hle p hp

/-- C123: the conditions on the matrices are met on every triangular mesh, for every symmetric positive conductivity
tensor; the conductivity is definite if all nodes are joined to nodes with prescribed temperature. -/
theorem C123_operators2 {N : ℕ} {elements : List (List ℕ)} {nodes : ℕ → ℕ → ℝ} (hv : ValidElements 2 N elements)
    (hn : Nondegenerate2 elements nodes) (hall : ∀ p < N, ∃ e ∈ elements, p ∈ e) (density : ℝ)
    (hdensity : 0 < density) (c : ℕ → ℕ → ℝ) (hsym : c 0 1 = c 1 0) (k : ℝ) (hk : 0 < k)
    (hc : ∀ z : ℕ → ℝ, k * (z 0 ^ 2 + z 1 ^ 2) ≤
      ∑ k ∈ Finset.range 2, ∑ l ∈ Finset.range 2, c k l * (z k * z l)) (D : ℕ → Prop) :
    let m := basicMatrices2 elements nodes
    StoresEnergy N (Plane.acceleration N m.U density) ∧ DefiniteOn N D (Plane.acceleration N m.U density) ∧
    StoresEnergy N (Plane.conductivity m.W c) ∧
    ((∀ p < N, Joined 3 elements (fun q => q < N ∧ D q) p) → DefiniteOn N D (Plane.conductivity m.W c)) := by
  obtain ⟨-, c2, c3, -⟩ := C28_conduction2 hv hn c (N := N)
  refine ⟨(C71_operators2 hv hn density 0 0 0 0 0 hdensity.le le_rfl le_rfl le_rfl le_rfl).2.2.2.1,
    (C74_mass2 hv hn density hdensity hall D).2,
    storesEnergy_of_form (c2 fun k hk l hl => ?_) (c3 fun z => le_trans (by positivity) (hc z)),
    permittivity_definite hv hn c k hk hc D⟩
  interval_cases k <;> interval_cases l <;> simp [hsym]

/-- The conductivity of a tetrahedral mesh joined to nodes with prescribed temperature is definite. -/
theorem conductivity_definite3 {N : ℕ} {elements : List (List ℕ)} {nodes : ℕ → ℕ → ℝ}
    (hv : ValidElements 3 N elements) (hn : Nondegenerate3 elements nodes) (c : ℕ → ℕ → ℝ) (k : ℝ) (hk : 0 < k)
    (hc : ∀ z : ℕ → ℝ, k * (z 0 ^ 2 + z 1 ^ 2 + z 2 ^ 2) ≤
      ∑ k ∈ Finset.range 3, ∑ l ∈ Finset.range 3, c k l * (z k * z l)) (D : ℕ → Prop)
    (hj : ∀ p < N, Joined 4 elements (fun q => q < N ∧ D q) p) :
    DefiniteOn N D (Space.conductivity (basicMatrices3 elements nodes).W c) := by
  intro x hx h0
  obtain ⟨F, hF⟩ := exists_fieldGradient (Space.allLocal hn) x
  refine C74_poisson3 hv hn 1 one_ne_zero D hj x hx ?_
  rw [quad_eq_form, form_conductivity3 hv hn c x x F F hF hF] at h0
  have h1 := (C25_poisson3 hv hn 1 (N := N)).2.1 x F hF
  have h2 := (C25_poisson3 hv hn 1 (N := N)).2.2.1 x
  rw [quad_eq_form]
  refine le_antisymm ?_ h2
  rw [h1, one_pow, one_mul]
  have h3 : k * dirichletEnergy 3 Spec.volume elements nodes F F ≤ 0 := by
    rw [← h0]
    unfold dirichletEnergy conduction sumElements
    rw [Finset.mul_sum]
    refine Finset.sum_le_sum fun t ht => ?_
    have hV := (Space.allLocal hn _ (getD_mem (Finset.mem_range.1 ht))).pos.le
    refine le_trans (le_of_eq ?_) (mul_le_mul_of_nonneg_left (hc (F t)) hV)
    simp only [Finset.sum_range_succ, Finset.sum_range_zero]
    ring
  by_contra h
  push Not at h
  nlinarith

/-- C123: the conditions on the matrices are met on every tetrahedral mesh. -/
theorem C123_operators3 {N : ℕ} {elements : List (List ℕ)} {nodes : ℕ → ℕ → ℝ} (hv : ValidElements 3 N elements)
    (hn : Nondegenerate3 elements nodes) (hall : ∀ p < N, ∃ e ∈ elements, p ∈ e) (density : ℝ)
    (hdensity : 0 < density) (c : ℕ → ℕ → ℝ) (hsym : ∀ k < 3, ∀ l < 3, c k l = c l k) (k : ℝ) (hk : 0 < k)
    (hc : ∀ z : ℕ → ℝ, k * (z 0 ^ 2 + z 1 ^ 2 + z 2 ^ 2) ≤
      ∑ k ∈ Finset.range 3, ∑ l ∈ Finset.range 3, c k l * (z k * z l)) (D : ℕ → Prop) :
    let m := basicMatrices3 elements nodes
    StoresEnergy N (Space.acceleration N m.U density) ∧ DefiniteOn N D (Space.acceleration N m.U density) ∧
    StoresEnergy N (Space.conductivity m.W c) ∧
    ((∀ p < N, Joined 4 elements (fun q => q < N ∧ D q) p) → DefiniteOn N D (Space.conductivity m.W c)) := by
  obtain ⟨-, c2, c3, -⟩ := C28_conduction3 hv hn c (N := N)
  obtain ⟨h1, h2⟩ := scalar_mass3 hv hn density hdensity hall D
  exact ⟨h1, h2, storesEnergy_of_form (c2 hsym) (c3 fun z => le_trans (by positivity) (hc z)),
    conductivity_definite3 hv hn c k hk hc D⟩

/-- A matrix that annihilates constants and is definite on vectors that vanish at the first node has no other
fields without energy. -/
theorem constant_of_definite {N : ℕ} {C : ℕ → ℕ → ℝ} (hC : ∀ r < N, ∀ s < N, C r s = C s r)
    (hone : ∀ a : ℝ, ∀ p < N, act N C (fun _ => a) p = 0) (hd : DefiniteOn N (fun q => q = 0) C) (x : ℕ → ℝ)
    (hx : quad N C x = 0) : ∀ p < N, x p = x 0 := by
  intro p hp
  refine sub_eq_zero.1 (hd (fun i => x i - x 0) (fun r _ h => by rw [h, sub_self]) ?_ p hp)
  have h1 : ∀ y, bilin N C y (fun _ => x 0) = 0 := fun y => by
    rw [← bilin_eq_act]
    exact Finset.sum_eq_zero fun r hr => by rw [hone _ r (Finset.mem_range.1 hr), mul_zero]
  rw [quad_eq_bilin, bilin_sub_left, bilin_sub_right, bilin_sub_right, h1, h1, bilin_symm _ _ hC (fun _ => x 0), h1,
    ← quad_eq_bilin, hx]
  simp

theorem joined_first {N m : ℕ} {elements : List (List ℕ)} (hN : 0 < N) {p : ℕ}
    (h : Joined m elements (fun q => q = 0) p) : Joined m elements (fun q => q < N ∧ q = 0) p := by
  induction h with
  | fixed p h => exact .fixed p ⟨by omega, h⟩
  | element e he i k hi hk _ ih => exact .element e he i k hi hk ih

/-- C123: the conditions for insulated bodies are met on every connected triangular mesh. -/
theorem C123_connected2 {N : ℕ} {elements : List (List ℕ)} {nodes : ℕ → ℕ → ℝ} (hv : ValidElements 2 N elements)
    (hn : Nondegenerate2 elements nodes) (c : ℕ → ℕ → ℝ) (hsym : c 0 1 = c 1 0) (k : ℝ) (hk : 0 < k)
    (hc : ∀ z : ℕ → ℝ, k * (z 0 ^ 2 + z 1 ^ 2) ≤
      ∑ k ∈ Finset.range 2, ∑ l ∈ Finset.range 2, c k l * (z k * z l))
    (hj : ∀ p < N, Joined 3 elements (fun q => q = 0) p) :
    let C := Plane.conductivity (basicMatrices2 elements nodes).W c
    (∀ p < N, act N C (fun _ => 1) p = 0) ∧ ∀ x, quad N C x = 0 → ∀ p < N, x p = x 0 := by
  obtain ⟨-, c2, -, c4⟩ := C28_conduction2 hv hn c (N := N)
  refine ⟨c4 1, constant_of_definite (c2 fun k hk l hl => ?_) c4 (permittivity_definite hv hn c k hk hc _
    fun p hp => joined_first (by omega) (hj p hp))⟩
  interval_cases k <;> interval_cases l <;> simp [hsym]

/-- C123: the same for tetrahedral meshes. -/
theorem C123_connected3 {N : ℕ} {elements : List (List ℕ)} {nodes : ℕ → ℕ → ℝ} (hv : ValidElements 3 N elements)
    (hn : Nondegenerate3 elements nodes) (c : ℕ → ℕ → ℝ) (hsym : ∀ k < 3, ∀ l < 3, c k l = c l k) (k : ℝ) (hk : 0 < k)
    (hc : ∀ z : ℕ → ℝ, k * (z 0 ^ 2 + z 1 ^ 2 + z 2 ^ 2) ≤
      ∑ k ∈ Finset.range 3, ∑ l ∈ Finset.range 3, c k l * (z k * z l))
    (hj : ∀ p < N, Joined 4 elements (fun q => q = 0) p) :
    let C := Space.conductivity (basicMatrices3 elements nodes).W c
    (∀ p < N, act N C (fun _ => 1) p = 0) ∧ ∀ x, quad N C x = 0 → ∀ p < N, x p = x 0 := by
  obtain ⟨-, c2, -, c4⟩ := C28_conduction3 hv hn c (N := N)
  exact ⟨c4 1, constant_of_definite (c2 hsym) c4 (conductivity_definite3 hv hn c k hk hc _
    fun p hp => joined_first (by omega) (hj p hp))⟩

/-- The upper corners of the square are kept at the temperature 20. -/
def warmBoundaries : List (CondBoundary ℝ) := [⟨.list [2, 3], fun _ => 20⟩]

/-- The square of `CreepBody.lean` conducts heat differently in the two directions. -/
noncomputable def warmOps : Operators ℝ :=
  { heldSquareOps with
    acceleration := Plane.acceleration 4 (basicMatrices2 heldSquareElements heldSquareNodes).U 3
    thermalConductivity := Plane.conductivity (basicMatrices2 heldSquareElements heldSquareNodes).W
      fun k l => if k = l then k + 1 else 0 }

open Classical in
/-- A thermal problem on the square; the heat equation is solved exactly, the motion not at all. -/
noncomputable def warmEngine : CoupledEngine ℝ where
  first :=
    { grid := ⟨4, 2, heldSquareNodes⟩, cls := .dynamicGlobal
      kind := .dynamicVelocityWithTemperature, ops := warmOps, boundaries := []
      solve := fun s _ => s.system.rhs }
  second :=
    { grid := ⟨4, 2, heldSquareNodes⟩, cls := .dynamicGlobal
      kind := .temperature, ops := warmOps, boundaries := warmBoundaries
      solve := fun s _ => if h : ∃ x, Solves 4 s.system x then h.choose else fun _ => 0 }
  stateKind := .temperature
  exceeds := fun _ _ _ _ => false

theorem warm_boundaries : ValidBoundaries 4 warmBoundaries ∧
    DirichletData 4 1 warmBoundaries (fun r => r < 4 ∧ 2 ≤ r) (fun _ => 20) := by
  refine ⟨?_, ⟨fun r => ⟨?_, ?_⟩, ?_⟩⟩
  · intro b hb
    simp only [warmBoundaries, List.mem_singleton] at hb
    subst hb
    refine ⟨?_, ?_⟩
    · intro v hv
      simp [nodesOf] at hv
      omega
    · intro i h; simp at h; subst h; simp
  · rintro ⟨h1, h2⟩
    refine ⟨20, _, List.mem_singleton.2 rfl, 0, by omega, r - 2, r, ?_, by omega, rfl⟩
    have h3 : r = 2 ∨ r = 3 := by omega
    rcases h3 with h | h <;> simp [nodesOf, h]
  · rintro ⟨v, b, hb, k, hk, j, n, hn, hr, hv⟩
    simp only [warmBoundaries, List.mem_singleton] at hb
    subst hb
    simp [nodesOf] at hn
    have : n = 2 ∨ n = 3 := by
      rcases j with _ | _ | j
      · left; simpa using hn.symm
      · right; simpa using hn.symm
      · simp at hn
    omega
  · rintro x v ⟨b, hb, k, hk, j, n, hn, hr, hv⟩
    simp only [warmBoundaries, List.mem_singleton] at hb
    subst hb
    exact hv.symm ▸ rfl

/-- The hypotheses of the theorems are met by the square, for every time step. -/
example (dt : ℝ) (hdt : 0 < dt) (θ₀ : ℕ → ℝ) (hθ : ∀ p < 4, p < 4 ∧ 2 ≤ p → θ₀ p = 20) :
    ∀ ε > 0, ∃ T : ℝ, ∀ (fuel : ℕ) (a : Engine.Arguments ℝ) (first second : SolverState ℝ),
      first.currentTime = 0 → second.timeStep = first.timeStep → first.timeStep = dt →
      ∀ (store : ProductStore ℝ Unit) (rs : List (State ℝ)) (r : CoupledEngine.Run ℝ Unit),
      warmEngine.solve fuel a θ₀ first second store = .ok (rs, r) → ∀ s ∈ rs, T ≤ s.time →
      ∃ θ : ℕ → ℝ, s.scalar = .temperature θ ∧ ∀ p < 4, |θ p - 20| ≤ ε := by
  obtain ⟨o1, o2, o3, o4⟩ := C123_operators2 heldSquare_mesh.1 heldSquare_mesh.2
    (by unfold heldSquareElements; decide) 3 (by norm_num) (fun k l => if k = l then (k : ℝ) + 1 else 0) (by simp) 1
    one_pos (fun z => by simp [Finset.sum_range_succ]; nlinarith [mul_self_nonneg (z 0), mul_self_nonneg (z 1)])
    fun r => r < 4 ∧ 2 ≤ r
  have hjoined : ∀ p < 4, Joined 3 heldSquareElements (fun q => q < 4 ∧ (q < 4 ∧ 2 ≤ q)) p := by
    have h2 : Joined 3 heldSquareElements (fun q => q < 4 ∧ (q < 4 ∧ 2 ≤ q)) 2 := .fixed _ (by norm_num)
    have h3 : Joined 3 heldSquareElements (fun q => q < 4 ∧ (q < 4 ∧ 2 ≤ q)) 3 := .fixed _ (by norm_num)
    have h0 := Joined.element [0, 2, 3] (by simp [heldSquareElements]) 1 0 (by norm_num) (by norm_num) h2
    have h1 := Joined.element [0, 1, 2] (by simp [heldSquareElements]) 2 1 (by norm_num) (by norm_num) h2
    intro p hp
    interval_cases p
    · exact h0
    · exact h1
    · exact h2
    · exact h3
  have o4 := o4 hjoined
  have hs : ExactSolve warmEngine.second 4 dt := by
    intro S guess var hvar h
    obtain ⟨x, hx, -⟩ := C74_heat warmEngine.second.ops rfl warmBoundaries _ _ warm_boundaries.1 warm_boundaries.2
      o1 o2 o3 var dt hdt hvar S.system h
    have hex : ∃ x, Solves 4 S.system x := ⟨x, hx⟩
    have : warmEngine.second.solve S guess = hex.choose := dif_pos hex
    rw [this]
    exact hex.choose_spec
  obtain ⟨r₀, h1, h2, h3⟩ := C123_settles (V := Unit) warmEngine rfl rfl rfl _ _ warm_boundaries.1 warm_boundaries.2
    o1 o2 o3 o4 (fun w p _ => Finset.sum_eq_zero fun s _ => zero_mul _) θ₀ hθ dt hdt hs
  obtain ⟨r₁, -, hu⟩ := C123_steady _ _ _ warm_boundaries.1 warm_boundaries.2 o4
  have h20 : ∀ p < 4, r₀ p = 20 := fun p hp => by
    rw [hu r₀ h1 h2 p hp, hu (fun _ => 20) (fun _ _ _ => rfl) (fun p hp _ => by
      have := (C28_conduction2 heldSquare_mesh.1 heldSquare_mesh.2
        (fun k l => if k = l then (k : ℝ) + 1 else 0)).2.2.2 20 p hp
      exact this) p hp]
  intro ε hε
  obtain ⟨T, hT⟩ := h3 ε hε
  refine ⟨T, fun fuel a first second hc hts hd store rs r h s hmem ht => ?_⟩
  obtain ⟨θ, h4, h5⟩ := hT fuel a first second hc hts hd store rs r h s hmem ht
  exact ⟨θ, h4, fun p hp => by rw [← h20 p hp]; exact h5 p hp⟩

/-- The square is connected, so that `C123_connected2` applies to it. -/
example : ∀ p < 4, Joined 3 heldSquareElements (fun q => q = 0) p := by
  have h0 : Joined 3 heldSquareElements (fun q => q = 0) 0 := .fixed _ rfl
  have h1 := Joined.element [0, 1, 2] (by simp [heldSquareElements]) 0 1 (by norm_num) (by norm_num) h0
  have h2 := Joined.element [0, 1, 2] (by simp [heldSquareElements]) 0 2 (by norm_num) (by norm_num) h0
  have h3 := Joined.element [0, 2, 3] (by simp [heldSquareElements]) 0 2 (by norm_num) (by norm_num) h0
  intro p hp
  interval_cases p
  · exact h0
  · exact h1
  · exact h2
  · exact h3

end
end Conmech
