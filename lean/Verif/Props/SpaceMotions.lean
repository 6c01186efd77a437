import Verif.Props.SpaceContact
import Verif.Props.SpaceRuns
import Verif.Props.Motions
import Verif.Spec.Rest
/-!
C105 and C59 for bodies in space.

Time-dependent problems impose the Dirichlet conditions on two coordinates only, so that a clamped body is
still free to move in the third one.
-/
namespace Conmech
open Spec

/-! ### Convergence -/

section
variable {V : Type}

/-- Exact solutions meet the condition of the theorems on time steps, also if the system has more unknowns
than those of two coordinates. -/
theorem exact_contactSolve (e : Engine ℝ) (n : ℕ) (D : ℕ → Prop) [DecidablePred D]
    {k : ℕ} (hdim : e.kind.dimensionIn e.ops.dimension = k) (hv : ValidBoundaries e.ops.nodesCount e.boundaries)
    (hd : DirichletData e.ops.nodesCount k e.boundaries D fun _ => 0) (dt : ℝ) (hs : ExactSolve e n dt) :
    ContactSolve e n D dt fun _ => 0 := by
  intro S guess var hdt hu
  have h1 := hs S guess var hdt hu
  refine ⟨(exact_passive e n D hdim hv hd dt hs S guess var hdt hu).1, fun y _ => le_of_eq ?_⟩
  rw [sub_self, add_zero]
  refine (Finset.sum_eq_zero fun r hr => ?_).symm
  have h2 : ∑ s ∈ Finset.range n, S.system.lhs r s * e.solve S guess s = S.system.rhs r :=
    h1 r (Finset.mem_range.1 hr)
  rw [h2, sub_self, mul_zero]

/-- C105 in space: there is exactly one motion of the body from the initial state, and the states returned
by `solve` are at most a multiple of the elapsed time and of the time step away from it. -/
theorem C105_space {elements : List (List ℕ)} {nodes : ℕ → ℕ → ℝ} {density mu lam theta zeta : ℝ}
    {e : Engine ℝ} {D : ℕ → Prop} [DecidablePred D]
    (hb : ∀ dt, 0 < dt → SpaceBody elements nodes density mu lam theta zeta e D dt) (hdensity : 0 < density)
    (hall : ∀ p < e.ops.nodesCount, ∃ t ∈ elements, p ∈ t)
    (hlam : 0 ≤ lam) (hle : lam ≤ mu) (hzeta : 0 ≤ zeta) (hle' : zeta ≤ theta)
    (T l : ℝ) (hT : 0 ≤ T) (hl : 0 ≤ l)
    (hf : ∀ s ∈ Set.Icc 0 T, ∀ t ∈ Set.Icc 0 T, ∀ r < 3 * e.ops.nodesCount,
      |e.ops.force s r - e.ops.force t r| ≤ l * |s - t|)
    (u₀ v₀ : ℕ → ℕ → ℝ) (hv₀ : Still (3 * e.ops.nodesCount) D (State.flatten e.grid v₀)) :
    let MotionOf := fun u v acc : ℝ → ℕ → ℝ => Motion (3 * e.ops.nodesCount) D e.ops.acceleration
      e.ops.viscosity e.ops.elasticity (fun _ => 0) e.ops.force 0 T u v acc ∧
      ∀ r < 3 * e.ops.nodesCount,
        u 0 r = State.flatten e.grid u₀ r ∧ v 0 r = State.flatten e.grid v₀ r
    ∃ (u v acc : ℝ → ℕ → ℝ) (C : ℝ), MotionOf u v acc ∧
      (∀ u' v' acc', MotionOf u' v' acc' → ∀ t ∈ Set.Icc 0 T, ∀ r < 3 * e.ops.nodesCount,
        u' t r = u t r ∧ v' t r = v t r) ∧
      ∀ (a : Engine.Arguments ℝ) (solver : SolverState ℝ) (store : ProductStore ℝ V)
        (rs : List (State ℝ)) (sim : Simulation ℝ V),
        a.initialDisplacement = u₀ → a.initialVelocity = v₀ → 0 < solver.timeStep →
        solver.currentTime = 0 → e.timeDependentSolve a solver store = .ok (rs, sim) →
        ∀ s ∈ rs, s.time ≤ T →
          energyDistance (3 * e.ops.nodesCount) e.ops.acceleration e.ops.elasticity
            (State.flatten e.grid s.displacement) (State.flatten e.grid s.velocity)
            (u s.time) (v s.time) ≤ s.time * solver.timeStep * C := by
  intro MotionOf
  have h1 := hb 1 one_pos
  obtain ⟨c, hr⟩ := h1.registered
  have o1 : StoresEnergy (3 * e.ops.nodesCount) e.ops.acceleration := by
    rw [h1.acceleration]
    exact (C71_operators3 h1.valid h1.proper density 0 0 hdensity.le le_rfl).1
  have o2 : StoresEnergy (3 * e.ops.nodesCount) e.ops.elasticity := by
    rw [h1.elasticity]; exact C120_nonneg_partial h1.valid h1.proper mu lam hlam hle
  have o3 : Dissipates (3 * e.ops.nodesCount) e.ops.viscosity := by
    rw [h1.viscosity]; exact ⟨(C120_nonneg_partial h1.valid h1.proper theta zeta hzeta hle').nonneg⟩
  have hdef : DefiniteOn (3 * e.ops.nodesCount) D e.ops.acceleration := by
    rw [h1.acceleration]; exact C73_mass3 h1.valid h1.proper density hdensity hall D
  obtain ⟨u, v, acc, C, hm, h0, hC⟩ := C105_converges (V := V) e h1.kind hr h1.indirect h1.dimension D
    h1.boundaries h1.data o1 hdef o3 o2 (fun _ => 0) (fun _ _ => 0) 0 le_rfl
    ⟨fun v y => by simp, fun v w r _ => by simp⟩ T l hT hl hf
    (fun dt hdt => exact_contactSolve e _ D (by rw [h1.kind]; rfl) h1.boundaries h1.data dt (hb dt hdt).exact_)
    u₀ v₀ hv₀
  refine ⟨u, v, acc, C, ⟨hm, h0⟩, fun u' v' acc' h' t ht r hr => ?_, hC⟩
  exact C105_unique o1 o3 o2 hdef h'.1 hm (fun r hr => ((h'.2 r hr).1).trans (h0 r hr).1.symm)
    (fun r hr => ((h'.2 r hr).2).trans (h0 r hr).2.symm) t ht r hr

end

/-! ### Clamped bodies are not held -/

/-- The translation in the third coordinate. -/
def upwards {K : Type} [Field K] (N : ℕ) : ℕ → K := fun r => if 2 * N ≤ r then 1 else 0

section
variable {K : Type} [Field K] {V : Type}

theorem upwards_translation (N : ℕ) :
    ∀ k < 3, ∀ p < N, upwards (K := K) N (k * N + p) = if k = 2 then 1 else 0 := by
  intro k hk p hp
  unfold upwards
  interval_cases k
  · simp; omega
  · simp; omega
  · simp

/-- No condition is imposed on the third coordinate. -/
theorem upwards_free {N : ℕ} {bs : List (CondBoundary K)} {D : ℕ → Prop} {g : ℕ → K}
    (hv : ValidBoundaries N bs) (hd : DirichletData N 2 bs D g) (r : ℕ) (hD : D r) : upwards (K := K) N r = 0 := by
  obtain ⟨v, b, hb, d, hd2, j, node, hj, rfl, -⟩ := (hd.dofs r).1 hD
  have h1 := (hv b hb).1 node (List.mem_of_getElem? hj)
  unfold upwards
  rw [if_neg]
  interval_cases d <;> omega

end

section
variable {K : Type} [Field K] [LinearOrder K] [IsStrictOrderedRing K] {V : Type}
variable {N : ℕ} {elements : List (List ℕ)} {nodes : ℕ → ℕ → K}

/-- C59, its consequence for dynamic problems: whatever part of a body in space is clamped, its momentum in
the third coordinate is the initial one plus the elapsed time times the load in this coordinate, and no
displacement balances a load with a third component. The body falls as if it were free. -/
theorem C59_falls_wrong {density mu lam theta zeta : K} {e : Engine K} {D : ℕ → Prop} [DecidablePred D]
    (a : Engine.Arguments K) (solver : SolverState K)
    (hb : SpaceBody elements nodes density mu lam theta zeta e D solver.timeStep)
    (f : ℕ → K) (hf : ∀ t, e.ops.force t = f) (hdt : solver.timeStep ≠ 0) (hc : solver.currentTime = 0)
    (store : ProductStore K V) (rs : List (State K)) (sim : Simulation K V)
    (h : e.timeDependentSolve a solver store = .ok (rs, sim)) :
    let load := ∑ r ∈ Finset.range (3 * e.ops.nodesCount), upwards e.ops.nodesCount r * f r
    (∀ s ∈ rs, momentum (3 * e.ops.nodesCount) e.ops.acceleration (upwards e.ops.nodesCount)
        (State.flatten e.grid s.velocity) =
      momentum (3 * e.ops.nodesCount) e.ops.acceleration (upwards e.ops.nodesCount)
        (State.flatten e.grid a.initialVelocity) + s.time * load) ∧
    (load ≠ 0 → ∀ u v, ¬ AtRest (3 * e.ops.nodesCount) D e.ops.elasticity f u v) := by
  intro load
  have hfree := fun r => upwards_free hb.boundaries hb.data r
  refine ⟨fun s hmem => C72_space_partial a solver hb f hf hdt hc _ (fun r _ => hfree r)
    (Or.inl ⟨_, upwards_translation _⟩) store rs sim h s hmem, fun hne u v hrest => hne ?_⟩
  obtain ⟨hsym, htrans⟩ := C27_symmetric_translation_partial (N := e.ops.nodesCount) hb.valid hb.proper mu lam
  have h1 := (unresisted_of_act hsym).2 (htrans (upwards _) _ (upwards_translation _))
  rw [← hb.elasticity] at h1
  have h2 : load = ∑ r ∈ Finset.range (3 * e.ops.nodesCount),
      upwards e.ops.nodesCount r * act (3 * e.ops.nodesCount) e.ops.elasticity u r := by
    refine Finset.sum_congr rfl fun r hr => ?_
    by_cases hD : D r
    · rw [hfree r hD, zero_mul, zero_mul]
    · rw [hrest.equilibrium r (Finset.mem_range.1 hr) hD]
  rw [h2]
  simp only [act, Finset.mul_sum]
  rw [Finset.sum_comm]
  refine Finset.sum_eq_zero fun s hs => ?_
  have := h1 s (Finset.mem_range.1 hs)
  simp only [← mul_assoc, ← Finset.sum_mul, this, zero_mul]

/-- C59, its consequence for quasistatic problems: whatever part of a body in space is clamped, its systems
are not uniquely solvable. -/
theorem C59_quasistatic_wrong (hv : ValidElements 3 N elements) (hn : Nondegenerate3 elements nodes)
    (hpos : 0 < N) (mu lam theta zeta : K) (ops : Operators K) (hN : ops.nodesCount = N)
    (hel : ops.elasticity = Space.constitutive N (basicMatrices3 elements nodes).W mu lam)
    (hvis : ops.viscosity = Space.constitutive N (basicMatrices3 elements nodes).W theta zeta)
    (bs : List (CondBoundary K)) (D : ℕ → Prop) [DecidablePred D] (g : ℕ → K)
    (hb : ValidBoundaries N bs) (hd : DirichletData N 2 bs D g) (kind : StatementKind)
    (hk : kind = .quasistaticVelocity ∨ kind = .quasistaticVelocityWithPiezoelectric)
    (var : Variables K) (S : System K) (h : kind.update ops bs var = .ok S) :
    ¬ UniquelySolvable (3 * N) S := by
  rintro ⟨x, hx, hu⟩
  obtain ⟨lhs, rhs, h1, -, h3⟩ := update_eliminated _ _ _ _ _ h
  have hin : kind.dimensionIn ops.dimension = 2 := by rcases hk with rfl | rfl <;> rfl
  have h1 : quasistaticLhs ops var = .ok lhs := by rcases hk with rfl | rfl <;> exact h1
  rw [hin, hN] at h3
  subst h3
  have hc := C14_all_at_once_partial N 2 bs ⟨lhs, rhs⟩ D g hb hd
  have hfree := fun r => upwards_free hb hd r
  have hzero : ∀ r < 3 * N, ∑ s ∈ Finset.range (3 * N), lhs r s * upwards N s = 0 := by
    intro r hr
    obtain ⟨dt, hdt⟩ : ∃ dt, var.timeStep = some dt := by
      cases ht : var.timeStep with
      | none => simp [quasistaticLhs, ht, required, bind, Except.bind] at h1
      | some dt => exact ⟨dt, rfl⟩
    obtain rfl : (fun r s => ops.viscosity r s + ops.elasticity r s * dt) = lhs := by
      simpa [quasistaticLhs, hdt, required, bind, Except.bind, pure, Except.pure] using h1
    have t1 := (C27_symmetric_translation_partial (N := N) hv hn mu lam).2 (upwards N) _
      (upwards_translation N) r hr
    have t2 := (C27_symmetric_translation_partial (N := N) hv hn theta zeta).2 (upwards N) _
      (upwards_translation N) r hr
    rw [← hel] at t1
    rw [← hvis] at t2
    unfold act at t1 t2
    calc ∑ s ∈ Finset.range (3 * N), (ops.viscosity r s + ops.elasticity r s * dt) * upwards N s
        = ∑ s ∈ Finset.range (3 * N), ops.viscosity r s * upwards N s +
          dt * ∑ s ∈ Finset.range (3 * N), ops.elasticity r s * upwards N s := by
          rw [Finset.mul_sum, ← Finset.sum_add_distrib]
          exact Finset.sum_congr rfl fun s _ => by ring
      _ = 0 := by rw [t1, t2]; ring
  have hy : Solves (3 * N) (applyDirichlet N 2 bs ⟨lhs, rhs⟩) fun r => x r + upwards N r := by
    intro r hr
    have h4 : ∑ s ∈ Finset.range (3 * N), (applyDirichlet N 2 bs ⟨lhs, rhs⟩).lhs r s * x s =
      (applyDirichlet N 2 bs ⟨lhs, rhs⟩).rhs r := hx r hr
    change ∑ s ∈ Finset.range (3 * N), (applyDirichlet N 2 bs ⟨lhs, rhs⟩).lhs r s * (x s + upwards N s) = _
    simp only [mul_add, Finset.sum_add_distrib]
    rw [h4, add_eq_left]
    by_cases hD : D r
    · refine Finset.sum_eq_zero fun s _ => ?_
      rw [(hc r).1 s, if_pos (Or.inl hD)]
      by_cases hrs : r = s
      · rw [← hrs, hfree r hD, mul_zero]
      · rw [if_neg hrs, zero_mul]
    · rw [← hzero r hr]
      refine Finset.sum_congr rfl fun s _ => ?_
      rw [(hc r).1 s]
      by_cases hDs : D s
      · rw [hfree s hDs, mul_zero, mul_zero]
      · rw [if_neg (by tauto)]
  have := hu _ hy (2 * N) (by omega)
  beta_reduce at this
  unfold upwards at this
  rw [if_pos le_rfl] at this
  simp at this

end

/-! ### Examples -/

open Classical in
/-- The column in a dynamic problem with loads that grow in time, solved exactly. -/
noncomputable def columnMoving : Engine ℝ where
  grid := { nodesCount := 9, dimension := 3, nodes := columnNodes 2 }
  cls := .dynamicGlobal
  kind := .dynamicVelocity
  ops := { hangingOps with
    nodesCount := 9
    dimension := 3
    acceleration := Space.acceleration 9 (basicMatrices3 columnMesh (columnNodes (2 : ℝ))).U 5
    viscosity := Space.constitutive 9 (basicMatrices3 columnMesh (columnNodes (2 : ℝ))).W 4 2
    elasticity := Space.constitutive 9 (basicMatrices3 columnMesh (columnNodes (2 : ℝ))).W 3 1
    force := fun t _ => 7 * t }
  boundaries := columnSupport
  solve := fun s _ => if h : ∃ x, Solves 27 s.system x then h.choose else fun _ => 0

/-- The hypotheses of `C105_space` are met: the column, its base clamped, is pulled more and more. -/
example (store : ProductStore ℝ Unit) :
    ∃ (u v acc : ℝ → ℕ → ℝ) (C : ℝ),
      Motion 27 (fun r => r < 2 * 9 ∧ r % 9 < 3) columnMoving.ops.acceleration columnMoving.ops.viscosity
        columnMoving.ops.elasticity (fun _ => 0) columnMoving.ops.force 0 3 u v acc ∧
      ∀ (a : Engine.Arguments ℝ) (solver : SolverState ℝ) (rs : List (State ℝ)) (sim : Simulation ℝ Unit),
        a.initialDisplacement = (fun _ _ => 0) → a.initialVelocity = (fun _ _ => 0) → 0 < solver.timeStep →
        solver.currentTime = 0 → columnMoving.timeDependentSolve a solver store = .ok (rs, sim) →
        ∀ s ∈ rs, s.time ≤ 3 →
          energyDistance 27 columnMoving.ops.acceleration columnMoving.ops.elasticity
            (State.flatten columnMoving.grid s.displacement) (State.flatten columnMoving.grid s.velocity)
            (u s.time) (v s.time) ≤ s.time * solver.timeStep * C := by
  have hn := column_nondegenerate (2 : ℝ) (by norm_num)
  have hall : ∀ p < 9, ∃ t ∈ columnMesh, p ∈ t := by unfold columnMesh; decide
  have hb : ∀ dt : ℝ, 0 < dt → SpaceBody columnMesh (columnNodes 2) 5 3 1 4 2 columnMoving
      (fun r => r < 2 * 9 ∧ r % 9 < 3) dt := by
    intro dt hdt
    refine ⟨rfl, ⟨.DynamicDisplacementProblem, ⟨.dynamic, by decide +kernel, by decide +kernel⟩,
      Or.inl (by decide +kernel)⟩, SolverClass.noConfusion, rfl, column_valid, hn, rfl, rfl, rfl,
      (columnSupport_data 2).1, (columnSupport_data 2).2, ?_⟩
    intro S guess var hvar h
    obtain ⟨x, hx, -⟩ := C74_space column_valid hn hall 5 3 1 4 2 (by norm_num) (by norm_num)
      (by norm_num) (by norm_num) (by norm_num) columnMoving.ops rfl rfl rfl rfl rfl _ _ _
      (columnSupport_data 2).1 (columnSupport_data 2).2 var dt hdt hvar S.system h
    have hex : ∃ x, Solves 27 S.system x := ⟨x, hx⟩
    have : columnMoving.solve S guess = hex.choose := dif_pos hex
    rw [this]
    exact hex.choose_spec
  obtain ⟨u, v, acc, C, hm, -, hC⟩ := C105_space (V := Unit) hb (by norm_num) hall (by norm_num) (by norm_num)
    (by norm_num) (by norm_num) 3 7 (by norm_num) (by norm_num)
    (fun s _ t _ r _ => by
      change |7 * s - 7 * t| ≤ _
      rw [← mul_sub, abs_mul, abs_of_pos (by norm_num : (0 : ℝ) < 7)])
    (fun _ _ => 0) (fun _ _ => 0) (fun r _ _ => by simp [State.flatten])
  exact ⟨u, v, acc, C, hm.1, fun a solver rs sim h1 h2 h3 h4 h5 => hC a solver store rs sim h1 h2 h3 h4 h5⟩

/-- The load of `columnDynamic`, which meets the other hypotheses of `C59_falls_wrong`, has a third
component. -/
example : (∀ t, columnDynamic.ops.force t = fun r : ℕ => (r : ℚ)) ∧
    ∑ r ∈ Finset.range (3 * 9), upwards 9 r * (r : ℚ) ≠ 0 := by
  refine ⟨fun t => rfl, ?_⟩
  unfold upwards
  decide +kernel

/-- The hypotheses of `C59_quasistatic_wrong` are met by the column. -/
example : ∃ (var : Variables ℝ) (S : System ℝ),
    StatementKind.quasistaticVelocity.update columnMoving.ops columnSupport var = .ok S ∧
    ¬ UniquelySolvable 27 S := by
  refine ⟨⟨some fun _ => 0, some fun _ => 0, some fun _ => 0, some fun _ => 0, some fun _ => 0, some 1, some 0⟩,
    _, rfl, ?_⟩
  refine C59_quasistatic_wrong column_valid (column_nondegenerate (2 : ℝ) (by norm_num)) (by norm_num) 3 1 4 2
    columnMoving.ops rfl rfl rfl columnSupport _ _ (columnSupport_data 2).1 (columnSupport_data 2).2
    .quasistaticVelocity (Or.inl rfl) ⟨some fun _ => 0, some fun _ => 0, some fun _ => 0, some fun _ => 0,
      some fun _ => 0, some 1, some 0⟩ _ rfl

end Conmech
