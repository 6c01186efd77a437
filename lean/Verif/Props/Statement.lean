import Verif.Model.Statement
import Verif.Spec.Statement
import Verif.Props.Dirichlet
/-!
C34: the systems of the time-dependent statements are the implicit Euler discretisations.
In all theorems `D` is the set of constrained degrees of freedom and `g` are the prescribed values.
-/
namespace Conmech
open Spec

variable {K : Type} [Field K] (ops : Operators K) (bs : List (CondBoundary K))
  (D : ℕ → Prop) [DecidablePred D] (g : ℕ → K)

/-- Static elasticity: `B u = f(0)`. -/
theorem C34_static (hv : ValidBoundaries ops.nodesCount bs)
    (hd : DirichletData ops.nodesCount ops.dimension bs D g) (var : Variables K) :
    ∃ S, StatementKind.staticDisplacement.update ops bs var = .ok S ∧
      ∀ u, Solves (ops.dimension * ops.nodesCount) S u ↔
        (∀ r < ops.dimension * ops.nodesCount, D r → u r = g r) ∧
        ∀ r < ops.dimension * ops.nodesCount, ¬ D r →
          act (ops.dimension * ops.nodesCount) ops.elasticity u r = ops.force 0 r := by
  refine ⟨_, rfl, fun u => ?_⟩
  exact C12_elimination_equivalent ops.nodesCount ops.dimension bs _ D g hv hd u

/-- Poisson problem: `P x = q(0)`. -/
theorem C34_poisson (hv : ValidBoundaries ops.nodesCount bs)
    (hd : DirichletData ops.nodesCount 1 bs D g) (var : Variables K) :
    ∃ S, StatementKind.staticPoisson.update ops bs var = .ok S ∧
      ∀ x, Solves ops.nodesCount S x ↔
        (∀ r < ops.nodesCount, D r → x r = g r) ∧
        ∀ r < ops.nodesCount, ¬ D r →
          act ops.nodesCount ops.poisson x r = ops.bodyTemperature 0 r := by
  refine ⟨_, rfl, fun u => ?_⟩
  have := C12_elimination_equivalent ops.nodesCount 1 bs ⟨ops.poisson, ops.bodyTemperature 0⟩ D g hv hd u
  rw [Nat.one_mul] at this
  exact this

/-- Quasistatic step: `A v + B (u + dt v) = f(t)`. -/
theorem C34_quasistatic (hdim : ops.dimension = 2) (hv : ValidBoundaries ops.nodesCount bs)
    (hd : DirichletData ops.nodesCount 2 bs D g) (u : ℕ → K) (dt t : K) (var : Variables K)
    (hu : var.displacement = some u) (hdt : var.timeStep = some dt) (ht : var.time = some t) :
    ∃ S, StatementKind.quasistaticVelocity.update ops bs var = .ok S ∧
      ∀ v, Solves (2 * ops.nodesCount) S v ↔
        (∀ r < 2 * ops.nodesCount, D r → v r = g r) ∧
        ∀ r < 2 * ops.nodesCount, ¬ D r →
          act (2 * ops.nodesCount) ops.viscosity v r +
          act (2 * ops.nodesCount) ops.elasticity (fun i => u i + dt * v i) r = ops.force t r := by
  cases var
  simp only at hu hdt ht
  subst hu hdt ht
  refine ⟨_, rfl, fun v => ?_⟩
  change Solves _ (applyDirichlet ops.nodesCount 2 bs _) v ↔ _
  rw [C12_elimination_equivalent ops.nodesCount 2 bs _ D g hv hd v]
  refine and_congr_right fun _ => forall_congr' fun r => forall_congr' fun _ =>
    forall_congr' fun _ => ?_
  simp only [Row, act, matVec, hdim]
  have key : ∑ s ∈ Finset.range (2 * ops.nodesCount),
        (ops.viscosity r s + ops.elasticity r s * dt) * v s +
      ∑ s ∈ Finset.range (2 * ops.nodesCount), ops.elasticity r s * u s =
      ∑ s ∈ Finset.range (2 * ops.nodesCount), ops.viscosity r s * v s +
      ∑ s ∈ Finset.range (2 * ops.nodesCount), ops.elasticity r s * (u s + dt * v s) := by
    rw [← Finset.sum_add_distrib, ← Finset.sum_add_distrib]
    exact Finset.sum_congr rfl fun s _ => by ring
  constructor <;> intro h
  · linear_combination h - key
  · linear_combination h + key

/-- The dynamic system, whatever is added to the force. -/
theorem dynamic_row (n r : ℕ) (u v0 v F : ℕ → K) (dt : K) (A B M : ℕ → ℕ → K) :
    Row n ⟨fun r s => A r s + 1 / dt * M r s + B r s * dt,
      fun r => F r + (matVec n (fun r s => -1 * B r s) u r +
        matVec n (fun r s => 1 / dt * M r s) v0 r)⟩ v r ↔
    act n M (fun i => (v i - v0 i) / dt) r + act n A v r + act n B (fun i => u i + dt * v i) r
      = F r := by
  simp only [Row, act, matVec]
  have key : ∑ s ∈ Finset.range n, (A r s + 1 / dt * M r s + B r s * dt) * v s -
      (∑ s ∈ Finset.range n, -1 * B r s * u s + ∑ s ∈ Finset.range n, 1 / dt * M r s * v0 s) =
      ∑ s ∈ Finset.range n, M r s * ((v s - v0 s) / dt) + ∑ s ∈ Finset.range n, A r s * v s +
      ∑ s ∈ Finset.range n, B r s * (u s + dt * v s) := by
    rw [← Finset.sum_add_distrib, ← Finset.sum_sub_distrib, ← Finset.sum_add_distrib,
      ← Finset.sum_add_distrib]
    exact Finset.sum_congr rfl fun s _ => by ring
  constructor <;> intro h
  · linear_combination h - key
  · linear_combination h + key

/-- Dynamic step: `M (v - v_old) / dt + A v + B (u + dt v) = f(t)`. -/
theorem C34_dynamic (hdim : ops.dimension = 2) (hv : ValidBoundaries ops.nodesCount bs)
    (hd : DirichletData ops.nodesCount 2 bs D g) (u vOld : ℕ → K) (dt t : K) (_hne : dt ≠ 0)
    (var : Variables K) (hu : var.displacement = some u) (hvel : var.velocity = some vOld)
    (hdt : var.timeStep = some dt) (ht : var.time = some t) :
    ∃ S, StatementKind.dynamicVelocity.update ops bs var = .ok S ∧
      ∀ v, Solves (2 * ops.nodesCount) S v ↔
        (∀ r < 2 * ops.nodesCount, D r → v r = g r) ∧
        ∀ r < 2 * ops.nodesCount, ¬ D r →
          act (2 * ops.nodesCount) ops.acceleration (fun i => (v i - vOld i) / dt) r +
          act (2 * ops.nodesCount) ops.viscosity v r +
          act (2 * ops.nodesCount) ops.elasticity (fun i => u i + dt * v i) r = ops.force t r := by
  cases var
  simp only at hu hvel hdt ht
  subst hu hvel hdt ht
  refine ⟨_, rfl, fun v => ?_⟩
  change Solves _ (applyDirichlet ops.nodesCount 2 bs _) v ↔ _
  rw [C12_elimination_equivalent ops.nodesCount 2 bs _ D g hv hd v]
  refine and_congr_right fun _ => forall_congr' fun r => forall_congr' fun _ =>
    forall_congr' fun _ => ?_
  simp only [hdim]
  exact dynamic_row _ r u vOld v (ops.force t) dt _ _ _

/-- Dynamic step with temperature: the thermal stress `Eᵀ θ` is added to the force. -/
theorem C34_dynamic_temperature (hdim : ops.dimension = 2) (hv : ValidBoundaries ops.nodesCount bs)
    (hd : DirichletData ops.nodesCount 2 bs D g) (u vOld θ : ℕ → K) (dt t : K) (_hne : dt ≠ 0)
    (var : Variables K) (hu : var.displacement = some u) (hvel : var.velocity = some vOld)
    (hθ : var.temperature = some θ) (hdt : var.timeStep = some dt) (ht : var.time = some t) :
    ∃ S, StatementKind.dynamicVelocityWithTemperature.update ops bs var = .ok S ∧
      ∀ v, Solves (2 * ops.nodesCount) S v ↔
        (∀ r < 2 * ops.nodesCount, D r → v r = g r) ∧
        ∀ r < 2 * ops.nodesCount, ¬ D r →
          act (2 * ops.nodesCount) ops.acceleration (fun i => (v i - vOld i) / dt) r +
          act (2 * ops.nodesCount) ops.viscosity v r +
          act (2 * ops.nodesCount) ops.elasticity (fun i => u i + dt * v i) r =
            ops.force t r + act ops.nodesCount (fun r s => ops.thermalExpansion s r) θ r := by
  cases var
  simp only at hu hvel hdt ht hθ
  subst hu hvel hdt ht hθ
  refine ⟨_, rfl, fun v => ?_⟩
  change Solves _ (applyDirichlet ops.nodesCount 2 bs _) v ↔ _
  rw [C12_elimination_equivalent ops.nodesCount 2 bs _ D g hv hd v]
  refine and_congr_right fun _ => forall_congr' fun r => forall_congr' fun _ =>
    forall_congr' fun _ => ?_
  simp only [hdim]
  rw [← dynamic_row _ r u vOld v (fun r => ops.force t r +
    act ops.nodesCount (fun r s => ops.thermalExpansion s r) θ r) dt]
  simp only [Row, act, matVec, transposed]
  constructor <;> intro h <;> linear_combination h

/-- Wave step (one unknown per node): `M (v - v_old) / dt + P (u + dt v) = f(t)`. -/
theorem C34_wave (hv : ValidBoundaries ops.nodesCount bs)
    (hd : DirichletData ops.nodesCount 1 bs D g) (u vOld : ℕ → K) (dt t : K) (_hne : dt ≠ 0)
    (var : Variables K) (hu : var.displacement = some u) (hvel : var.velocity = some vOld)
    (hdt : var.timeStep = some dt) (ht : var.time = some t) :
    ∃ S, StatementKind.wave.update ops bs var = .ok S ∧
      ∀ v, Solves ops.nodesCount S v ↔
        (∀ r < ops.nodesCount, D r → v r = g r) ∧
        ∀ r < ops.nodesCount, ¬ D r →
          act ops.nodesCount ops.acceleration (fun i => (v i - vOld i) / dt) r +
          act ops.nodesCount ops.poisson (fun i => u i + dt * v i) r = ops.force t r := by
  cases var
  simp only at hu hvel hdt ht
  subst hu hvel hdt ht
  refine ⟨_, rfl, fun v => ?_⟩
  change Solves _ (applyDirichlet ops.nodesCount 1 bs _) v ↔ _
  have := C12_elimination_equivalent ops.nodesCount 1 bs ⟨fun r s =>
    1 / dt * ops.acceleration r s + ops.poisson r s * dt, fun r => ops.force t r +
      (matVec ops.nodesCount (fun r s => -1 * ops.poisson r s) u r +
      matVec ops.nodesCount (fun r s => 1 / dt * ops.acceleration r s) vOld r)⟩ D g hv hd v
  rw [Nat.one_mul] at this
  rw [this]
  refine and_congr_right fun _ => forall_congr' fun r => forall_congr' fun _ =>
    forall_congr' fun _ => ?_
  have e := dynamic_row ops.nodesCount r u vOld v (ops.force t) dt (fun _ _ => 0) ops.poisson
    ops.acceleration
  have z : act ops.nodesCount (fun _ _ => (0 : K)) v r = 0 := by simp [act]
  rw [z, add_zero] at e
  rw [← e]
  simp only [zero_add]

/-- Heat step: `M (θ - θ_old) / dt + C θ = -E v`. -/
theorem C34_heat (hdim : ops.dimension = 2) (hv : ValidBoundaries ops.nodesCount bs)
    (hd : DirichletData ops.nodesCount 1 bs D g) (v θOld : ℕ → K) (dt : K) (_hne : dt ≠ 0)
    (var : Variables K) (hvel : var.velocity = some v) (hθ : var.temperature = some θOld)
    (hdt : var.timeStep = some dt) :
    ∃ S, StatementKind.temperature.update ops bs var = .ok S ∧
      ∀ θ, Solves ops.nodesCount S θ ↔
        (∀ r < ops.nodesCount, D r → θ r = g r) ∧
        ∀ r < ops.nodesCount, ¬ D r →
          act ops.nodesCount ops.acceleration (fun i => (θ i - θOld i) / dt) r +
          act ops.nodesCount ops.thermalConductivity θ r =
            - act (2 * ops.nodesCount) ops.thermalExpansion v r := by
  cases var
  simp only at hvel hdt hθ
  subst hvel hdt hθ
  refine ⟨_, rfl, fun θ => ?_⟩
  change Solves _ (applyDirichlet ops.nodesCount 1 bs _) θ ↔ _
  have := C12_elimination_equivalent ops.nodesCount 1 bs ⟨fun r s =>
    1 / dt * ops.acceleration r s + ops.thermalConductivity r s, fun r =>
      matVec (ops.dimension * ops.nodesCount) (fun r s => -1 * ops.thermalExpansion r s) v r +
      matVec ops.nodesCount (fun r s => 1 / dt * ops.acceleration r s) θOld r⟩ D g hv hd θ
  rw [Nat.one_mul] at this
  rw [this]
  refine and_congr_right fun _ => forall_congr' fun r => forall_congr' fun _ =>
    forall_congr' fun _ => ?_
  simp only [hdim, Row, act, matVec]
  have k1 : ∑ s ∈ Finset.range ops.nodesCount,
      (1 / dt * ops.acceleration r s + ops.thermalConductivity r s) * θ s -
      ∑ s ∈ Finset.range ops.nodesCount, 1 / dt * ops.acceleration r s * θOld s =
      ∑ s ∈ Finset.range ops.nodesCount, ops.acceleration r s * ((θ s - θOld s) / dt) +
      ∑ s ∈ Finset.range ops.nodesCount, ops.thermalConductivity r s * θ s := by
    rw [← Finset.sum_add_distrib, ← Finset.sum_sub_distrib]
    exact Finset.sum_congr rfl fun s _ => by ring
  have k2 : ∑ s ∈ Finset.range (2 * ops.nodesCount), -1 * ops.thermalExpansion r s * v s =
      - ∑ s ∈ Finset.range (2 * ops.nodesCount), ops.thermalExpansion r s * v s := by
    rw [← Finset.sum_neg_distrib]
    exact Finset.sum_congr rfl fun s _ => by ring
  constructor <;> intro h
  · linear_combination h - k1 + k2
  · linear_combination h + k1 - k2

/-- Relaxation step, for the displacement: `B u + R(t) (b + dt u) = f(t)` where `b + dt u` is the
absement at the end of the step. -/
theorem C34_relaxation (hdim : ops.dimension = 2) (hv : ValidBoundaries ops.nodesCount bs)
    (hd : DirichletData ops.nodesCount 2 bs D g) (b : ℕ → K) (dt t : K) (R : ℕ → ℕ → K)
    (hR : ops.relaxation (some t) = .ok R) (var : Variables K)
    (hb : var.absement = some b) (hdt : var.timeStep = some dt) (ht : var.time = some t) :
    ∃ S, StatementKind.quasistaticRelaxation.update ops bs var = .ok S ∧
      ∀ u, Solves (2 * ops.nodesCount) S u ↔
        (∀ r < 2 * ops.nodesCount, D r → u r = g r) ∧
        ∀ r < 2 * ops.nodesCount, ¬ D r →
          act (2 * ops.nodesCount) ops.elasticity u r +
          act (2 * ops.nodesCount) R (fun i => b i + dt * u i) r = ops.force t r := by
  cases var
  simp only at hb hdt ht
  subst hb hdt ht
  refine ⟨applyDirichlet ops.nodesCount 2 bs ⟨fun r s => ops.elasticity r s + R r s * dt,
    fun r => ops.force t r - matVec (ops.dimension * ops.nodesCount) R b r⟩, ?_, fun u => ?_⟩
  · simp only [StatementKind.update, updateLhs, updateRhs, required, bind, Except.bind, hR, pure, Except.pure]
    rfl
  rw [C12_elimination_equivalent ops.nodesCount 2 bs _ D g hv hd u]
  refine and_congr_right fun _ => forall_congr' fun r => forall_congr' fun _ =>
    forall_congr' fun _ => ?_
  simp only [Row, act, matVec, hdim]
  have key : ∑ s ∈ Finset.range (2 * ops.nodesCount),
        (ops.elasticity r s + R r s * dt) * u s +
      ∑ s ∈ Finset.range (2 * ops.nodesCount), R r s * b s =
      ∑ s ∈ Finset.range (2 * ops.nodesCount), ops.elasticity r s * u s +
      ∑ s ∈ Finset.range (2 * ops.nodesCount), R r s * (b s + dt * u s) := by
    rw [← Finset.sum_add_distrib, ← Finset.sum_add_distrib]
    exact Finset.sum_congr rfl fun s _ => by ring
  constructor <;> intro h
  · linear_combination h - key
  · linear_combination h + key

/-- A body with two nodes on which all operators are non-trivial. -/
def exampleOps : Operators ℚ where
  nodesCount := 2
  dimension := 2
  elasticity := fun r s => if r = s then 2 else 1
  viscosity := fun r s => if r = s then 3 else 0
  acceleration := fun r s => if r = s then 1 else 0
  poisson := fun r s => if r = s then 2 else -1
  thermalExpansion := fun r s => r + s
  thermalConductivity := fun r s => if r = s then 1 else 0
  permittivity := fun r s => if r = s then 1 else 0
  piezoelectricity := fun r s => r + 2 * s + 1
  relaxation := fun
    | some t => .ok fun r s => if r = s then t else 0
    | none => .error .relaxation
  force := fun t r => t + r
  bodyTemperature := fun _ r => r

/-- The hypotheses can be met: node 1 is fixed. -/
example : ValidBoundaries exampleOps.nodesCount [⟨.list [1], fun _ => (5 : ℚ)⟩] ∧
    DirichletData exampleOps.nodesCount 2 [⟨.list [1], fun _ => (5 : ℚ)⟩]
      (fun r => r = 1 ∨ r = 3) (fun _ => 5) ∧
    exampleOps.dimension = 2 ∧ ∃ R, exampleOps.relaxation (some 3) = .ok R := by
  refine ⟨?_, ⟨?_, ?_⟩, rfl, _, rfl⟩
  · intro b hb
    simp only [List.mem_singleton] at hb
    subst hb
    constructor
    · intro v hv
      simp [nodesOf] at hv; subst hv; decide
    · intro i h; simp at h; subst h; simp
  · intro x
    constructor
    · rintro (rfl | rfl)
      · exact ⟨5, _, List.mem_singleton.2 rfl, 0, by omega, 0, 1, by simp [nodesOf], by simp, rfl⟩
      · exact ⟨5, _, List.mem_singleton.2 rfl, 1, by omega, 0, 1, by simp [nodesOf],
          by simp [exampleOps], rfl⟩
    · rintro ⟨v, b, hb, d, hd, j, node, hj, hx, -⟩
      simp only [List.mem_singleton] at hb
      subst hb
      have : node = 1 := by
        rcases j with _ | j
        · simpa [nodesOf] using hj.symm
        · simp [nodesOf] at hj
      subst this
      simp only [exampleOps] at hx
      omega
  · rintro x v ⟨b, hb, d, hd, j, node, hj, hx, hvv⟩
    simp only [List.mem_singleton] at hb
    subst hb
    exact hvv

end Conmech
