import Verif.Props.SpaceStatic
import Verif.Props.Balance
/-!
C71, C72, C73 for bodies in space.

Time-dependent problems impose the Dirichlet conditions on two coordinates only (C59), so `D` is the set
of the degrees of freedom prescribed in two coordinates while the system has `3 N` unknowns.
-/
namespace Conmech
open Spec

section
variable {K : Type} [Field K] [LinearOrder K] [IsStrictOrderedRing K] {V : Type}
variable {N : ℕ} {elements : List (List ℕ)} {nodes : ℕ → ℕ → K}

/-- The mass matrix of a tetrahedral mesh is definite if every node belongs to a tetrahedron. -/
theorem C73_mass3 (hv : ValidElements 3 N elements) (hn : Nondegenerate3 elements nodes)
    (density : K) (hdensity : 0 < density) (hall : ∀ p < N, ∃ e ∈ elements, p ∈ e) (D : ℕ → Prop) :
    DefiniteOn (3 * N) D (Space.acceleration N (basicMatrices3 elements nodes).U density) := by
  obtain ⟨-, hp, hdef⟩ := C23_mass3 hv hn
  have hdef := hdef hall
  intro x _ h0 r hr
  rw [quad_eq_form, acceleration_form3] at h0
  have h1 := (mul_eq_zero.1 h0).resolve_left hdensity.ne'
  have p0 := hp (component N x 0)
  have p1 := hp (component N x 1)
  have p2 := hp (component N x 2)
  have hN : 0 < N := by omega
  have hmod : r % N < N := Nat.mod_lt _ hN
  have hlt : r / N < 3 := (Nat.div_lt_iff_lt_mul hN).2 hr
  have hcomp : ∀ a < 3, component N x a (r % N) = 0 := by
    intro a ha
    interval_cases a
    · exact hdef (component N x 0) (by linarith) _ hmod
    · exact hdef (component N x 1) (by linarith) _ hmod
    · exact hdef (component N x 2) (by linarith) _ hmod
  have := hcomp _ hlt
  simp only [component] at this
  rwa [Nat.div_add_mod'] at this

omit [IsStrictOrderedRing K] in
/-- Exact solutions are passive, also if the system has more unknowns than those of two coordinates. -/
theorem exact_passive (e : Engine K) (n : ℕ) (D : ℕ → Prop) [DecidablePred D]
    {k : ℕ} (hdim : e.kind.dimensionIn e.ops.dimension = k) (hv : ValidBoundaries e.ops.nodesCount e.boundaries)
    (hd : DirichletData e.ops.nodesCount k e.boundaries D fun _ => 0) (dt : K) (hs : ExactSolve e n dt) :
    PassiveSolve e n D dt := by
  intro S guess var hdt hu
  have h1 := hs S guess var hdt hu
  refine ⟨?_, passive_of_solves _ _ _ h1⟩
  obtain ⟨lhs, rhs, -, -, h2⟩ := update_eliminated _ _ _ _ _ hu
  rw [hdim] at h2
  rw [h2] at h1
  exact (elimination_size n _ k _ _ D hv hd _ h1).1

/-- A body in space in a dynamic problem without contact, solved exactly. -/
structure SpaceBody (elements : List (List ℕ)) (nodes : ℕ → ℕ → K) (density mu lam theta zeta : K)
    (e : Engine K) (D : ℕ → Prop) (dt : K) : Prop where
  kind : e.kind = .dynamicVelocity
  registered : ∃ c, Registered c e.cls e.kind
  indirect : e.cls ≠ .direct
  dimension : e.ops.dimension = 3
  valid : ValidElements 3 e.ops.nodesCount elements
  proper : Nondegenerate3 elements nodes
  acceleration : e.ops.acceleration =
    Space.acceleration e.ops.nodesCount (basicMatrices3 elements nodes).U density
  viscosity : e.ops.viscosity =
    Space.constitutive e.ops.nodesCount (basicMatrices3 elements nodes).W theta zeta
  elasticity : e.ops.elasticity =
    Space.constitutive e.ops.nodesCount (basicMatrices3 elements nodes).W mu lam
  boundaries : ValidBoundaries e.ops.nodesCount e.boundaries
  data : DirichletData e.ops.nodesCount 2 e.boundaries D fun _ => 0
  exact_ : ExactSolve e (3 * e.ops.nodesCount) dt

variable {density mu lam theta zeta : K} {e : Engine K} {D : ℕ → Prop} [DecidablePred D]

/-- C71 in space: for `0 ≤ λ ≤ μ`, and the viscosities likewise, the energies of the states returned
never grow. -/
theorem C71_space (a : Engine.Arguments K) (solver : SolverState K)
    (hb : SpaceBody elements nodes density mu lam theta zeta e D solver.timeStep) (hdensity : 0 ≤ density)
    (hlam : 0 ≤ lam) (hle : lam ≤ mu) (hzeta : 0 ≤ zeta) (hle' : zeta ≤ theta)
    (f : ℕ → K) (hf : ∀ t, e.ops.force t = f) (hdt : 0 < solver.timeStep) (hc : solver.currentTime = 0)
    (store : ProductStore K V) (rs : List (State K)) (sim : Simulation K V)
    (h : e.timeDependentSolve a solver store = .ok (rs, sim)) :
    List.Pairwise (fun x y => y ≤ x)
      (mechanicalEnergy (3 * e.ops.nodesCount) e.ops.acceleration e.ops.elasticity f
          (State.flatten e.grid a.initialDisplacement) (State.flatten e.grid a.initialVelocity) ::
        rs.map fun s => mechanicalEnergy (3 * e.ops.nodesCount) e.ops.acceleration e.ops.elasticity f
          (State.flatten e.grid s.displacement) (State.flatten e.grid s.velocity)) := by
  obtain ⟨c, hr⟩ := hb.registered
  refine C71_dynamic e hb.kind hr hb.indirect hb.dimension D hb.boundaries hb.data f hf ?_ ?_ ?_ a solver hdt
    hc (exact_passive e _ D (by rw [hb.kind]; rfl) hb.boundaries hb.data _ hb.exact_) store rs sim h
  · rw [hb.acceleration]
    exact (C71_operators3 hb.valid hb.proper density 0 0 hdensity le_rfl).1
  · rw [hb.viscosity]
    exact ⟨(C120_nonneg_partial hb.valid hb.proper theta zeta hzeta hle').nonneg⟩
  · rw [hb.elasticity]
    exact C120_nonneg_partial hb.valid hb.proper mu lam hlam hle

/-- C73 in space: a body which starts at rest in equilibrium stays there. -/
theorem C73_space (a : Engine.Arguments K) (solver : SolverState K)
    (hb : SpaceBody elements nodes density mu lam theta zeta e D solver.timeStep) (hdensity : 0 < density)
    (hall : ∀ p < e.ops.nodesCount, ∃ t ∈ elements, p ∈ t)
    (hlam : 0 ≤ lam) (hle : lam ≤ mu) (hzeta : 0 ≤ zeta) (hle' : zeta ≤ theta)
    (f : ℕ → K) (hf : ∀ t, e.ops.force t = f) (hdt : 0 < solver.timeStep) (hc : solver.currentTime = 0)
    (hrest : AtRest (3 * e.ops.nodesCount) D e.ops.elasticity f
      (State.flatten e.grid a.initialDisplacement) (State.flatten e.grid a.initialVelocity))
    (store : ProductStore K V) (rs : List (State K)) (sim : Simulation K V)
    (h : e.timeDependentSolve a solver store = .ok (rs, sim)) (s : State K) (hmem : s ∈ rs) :
    ∀ r < 3 * e.ops.nodesCount,
      State.flatten e.grid s.displacement r = State.flatten e.grid a.initialDisplacement r ∧
      State.flatten e.grid s.velocity r = 0 := by
  obtain ⟨c, hr⟩ := hb.registered
  refine C73_dynamic e hb.kind hr hb.indirect hb.dimension D hb.boundaries hb.data f hf ?_ ?_ ?_ (Or.inl ?_) a
    solver hdt hc (exact_passive e _ D (by rw [hb.kind]; rfl) hb.boundaries hb.data _ hb.exact_) store hrest
    rs sim h s hmem
  · rw [hb.acceleration]
    exact (C71_operators3 hb.valid hb.proper density 0 0 hdensity.le le_rfl).1
  · rw [hb.viscosity]
    exact ⟨(C120_nonneg_partial hb.valid hb.proper theta zeta hzeta hle').nonneg⟩
  · rw [hb.elasticity]
    exact C120_nonneg_partial hb.valid hb.proper mu lam hlam hle
  · rw [hb.acceleration]
    exact C73_mass3 hb.valid hb.proper density hdensity hall D

/-- What produces no force meets no resistance. -/
theorem unresisted_of_act {n : ℕ} {A : ℕ → ℕ → K} (hA : ∀ r < n, ∀ s < n, A r s = A s r) {z : ℕ → K} :
    Unresisted n A z ↔ ∀ s < n, act n A z s = 0 := by
  have : ∀ s < n, ∑ r ∈ Finset.range n, z r * A r s = act n A z s := by
    intro s hs
    unfold act
    exact Finset.sum_congr rfl fun r hr => by rw [hA r (Finset.mem_range.1 hr) s hs, mul_comm]
  exact ⟨fun h s hs => by rw [← this s hs, h s hs], fun h s hs => by rw [this s hs, h s hs]⟩

/-- C72, part: in space the momentum in the direction of every translation allowed by the supports is the
initial one plus the elapsed time times the load, for all coefficients, and that in the direction of every
rigid motion is if `μ = λ` and the viscosities are equal too. -/
theorem C72_space_partial (a : Engine.Arguments K) (solver : SolverState K)
    (hb : SpaceBody elements nodes density mu lam theta zeta e D solver.timeStep)
    (f : ℕ → K) (hf : ∀ t, e.ops.force t = f) (hdt : solver.timeStep ≠ 0) (hc : solver.currentTime = 0)
    (z : ℕ → K) (hz : ∀ r < 3 * e.ops.nodesCount, D r → z r = 0)
    (hrigid : (∃ t : ℕ → K, ∀ k < 3, ∀ p < e.ops.nodesCount, z (k * e.ops.nodesCount + p) = t k) ∨
      mu = lam ∧ theta = zeta ∧ RigidMotion 3 e.ops.nodesCount nodes z)
    (store : ProductStore K V) (rs : List (State K)) (sim : Simulation K V)
    (h : e.timeDependentSolve a solver store = .ok (rs, sim)) (s : State K) (hmem : s ∈ rs) :
    momentum (3 * e.ops.nodesCount) e.ops.acceleration z (State.flatten e.grid s.velocity) =
      momentum (3 * e.ops.nodesCount) e.ops.acceleration z (State.flatten e.grid a.initialVelocity) +
      s.time * ∑ r ∈ Finset.range (3 * e.ops.nodesCount), z r * f r := by
  obtain ⟨c, hr⟩ := hb.registered
  have key : ∀ x y : K, (x = y ∨ ∃ t : ℕ → K, ∀ k < 3, ∀ p < e.ops.nodesCount,
      z (k * e.ops.nodesCount + p) = t k) → (x = y → RigidMotion 3 e.ops.nodesCount nodes z ∨
        ∃ t : ℕ → K, ∀ k < 3, ∀ p < e.ops.nodesCount, z (k * e.ops.nodesCount + p) = t k) →
      Unresisted (3 * e.ops.nodesCount)
        (Space.constitutive e.ops.nodesCount (basicMatrices3 elements nodes).W x y) z := by
    intro x y h1 h2
    obtain ⟨hsym, htrans⟩ := C27_symmetric_translation_partial (N := e.ops.nodesCount) hb.valid hb.proper x y
    refine (unresisted_of_act hsym).2 ?_
    rcases h1 with h1 | ⟨t, ht⟩
    · rcases h2 h1 with h3 | ⟨t, ht⟩
      · subst h1
        exact (C27_equal_coefficients_partial hb.valid hb.proper x).2 z h3
      · exact htrans z t ht
    · exact htrans z t ht
  refine C72_dynamic e hb.kind hr hb.indirect hb.dimension D hb.boundaries hb.data z hz ?_ ?_ f hf a solver hdt
    hc hb.exact_ store rs sim h s hmem
  · rw [hb.viscosity]
    rcases hrigid with ht | ⟨-, h2, h3⟩
    · exact key _ _ (Or.inr ht) fun _ => Or.inr ht
    · exact key _ _ (Or.inl h2) fun _ => Or.inl h3
  · rw [hb.elasticity]
    rcases hrigid with ht | ⟨h1, -, h3⟩
    · exact key _ _ (Or.inr ht) fun _ => Or.inr ht
    · exact key _ _ (Or.inl h1) fun _ => Or.inl h3

/-- C72 fails in space: whenever `μ ≠ λ` there are an infinitesimal rotation and a displacement at which
the elastic forces of a free body change the momentum in the direction of the rotation. -/
theorem C72_rotation_wrong (hv : ValidElements 3 N elements) (hn : Nondegenerate3 elements nodes)
    (hne : elements ≠ []) (mu lam : K) (hml : mu ≠ lam) :
    ∃ z u : ℕ → K, RigidMotion 3 N nodes z ∧
      ∑ r ∈ Finset.range (3 * N),
        z r * act (3 * N) (Space.constitutive N (basicMatrices3 elements nodes).W mu lam) u r ≠ 0 := by
  obtain ⟨z, hz, he, -⟩ := C27_rotation_wrong (N := N) hv hn hne mu lam hml
  refine ⟨z, z, hz, ?_⟩
  have h1 : ∑ r ∈ Finset.range (3 * N),
      z r * act (3 * N) (Space.constitutive N (basicMatrices3 elements nodes).W mu lam) z r =
      form (3 * N) (3 * N) (Space.constitutive N (basicMatrices3 elements nodes).W mu lam) z z := by
    rw [← quad_eq_form]
    rfl
  rw [h1, he]
  have hpos : 0 < sumElements elements (fun _ e => Spec.volume (vertices nodes e)) := by
    refine Finset.sum_pos (fun t ht => (Space.allLocal hn _ (getD_mem (Finset.mem_range.1 ht))).pos) ?_
    exact ⟨0, Finset.mem_range.2 (List.length_pos_of_ne_nil hne)⟩
  exact mul_ne_zero (mul_ne_zero two_ne_zero (sub_ne_zero.2 hml)) hpos.ne'

end

/-! ### Solvability -/

/-- If the matrix is definite on the fields that vanish on the supports, the system can be solved also if it
has more unknowns than those of the coordinates with supports. -/
theorem solvable_size {K : Type} [Field K] [DecidableEq K] (n N dim : ℕ) (bs : List (CondBoundary K))
    (S : System K) (D : ℕ → Prop) [DecidablePred D] (g : ℕ → K) (hv : ValidBoundaries N bs)
    (hd : DirichletData N dim bs D g) (hdef : DefiniteOn n D S.lhs) :
    UniquelySolvable n (applyDirichlet N dim bs S) := by
  refine uniquelySolvable_of_injective _ _ fun x hx => ?_
  have hc := C14_all_at_once_partial N dim bs S D g hv hd
  have hxD : ∀ r < n, D r → x r = 0 := by
    intro r hr hD
    rw [← hx r hr, Finset.sum_eq_single r]
    · rw [(hc r).1 r]; simp [hD]
    · intro s _ hs; rw [(hc r).1 s]; simp [hD, hs.symm]
    · intro h; exact absurd (Finset.mem_range.2 hr) h
  refine hdef x hxD ?_
  refine Finset.sum_eq_zero fun r hr => ?_
  have hr := Finset.mem_range.1 hr
  by_cases hD : D r
  · rw [hxD r hr hD, zero_mul]
  · have : ∑ s ∈ Finset.range n, S.lhs r s * x s = 0 := by
      rw [← hx r hr]
      refine Finset.sum_congr rfl fun s hs => ?_
      rw [(hc r).1 s]
      by_cases hDs : D s
      · rw [hxD s (Finset.mem_range.1 hs) hDs]; ring
      · rw [if_neg (by tauto)]
    rw [this, mul_zero]

section
variable {K : Type} [Field K] [LinearOrder K] [IsStrictOrderedRing K]
variable {N : ℕ} {elements : List (List ℕ)} {nodes : ℕ → ℕ → K}

/-- C74 in space: the systems of dynamic problems are uniquely solvable for `0 ≤ λ ≤ μ`, viscosities
likewise and a positive density, if every node belongs to a tetrahedron. -/
theorem C74_space (hv : ValidElements 3 N elements) (hn : Nondegenerate3 elements nodes)
    (hall : ∀ p < N, ∃ e ∈ elements, p ∈ e) (density mu lam theta zeta : K) (hdensity : 0 < density)
    (hlam : 0 ≤ lam) (hle : lam ≤ mu) (hzeta : 0 ≤ zeta) (hle' : zeta ≤ theta)
    (ops : Operators K) (hN : ops.nodesCount = N) (hdim : ops.dimension = 3)
    (hacc : ops.acceleration = Space.acceleration N (basicMatrices3 elements nodes).U density)
    (hel : ops.elasticity = Space.constitutive N (basicMatrices3 elements nodes).W mu lam)
    (hvis : ops.viscosity = Space.constitutive N (basicMatrices3 elements nodes).W theta zeta)
    (bs : List (CondBoundary K)) (D : ℕ → Prop) [DecidablePred D] (g : ℕ → K)
    (hb : ValidBoundaries N bs) (hd : DirichletData N 2 bs D g)
    (var : Variables K) (dt : K) (hdt : 0 < dt) (hvar : var.timeStep = some dt) (S : System K)
    (h : StatementKind.dynamicVelocity.update ops bs var = .ok S) :
    UniquelySolvable (ops.dimension * ops.nodesCount) S := by
  subst hN
  rw [hdim]
  have o1 := (C71_operators3 hv hn density 0 0 hdensity.le le_rfl).1
  have o2 := C120_nonneg_partial hv hn mu lam hlam hle
  have o3 := C120_nonneg_partial hv hn theta zeta hzeta hle'
  rw [← hacc] at o1
  rw [← hel] at o2
  rw [← hvis] at o3
  obtain ⟨lhs, rhs, h1, -, h3⟩ := update_eliminated _ _ _ _ _ h
  rw [h3]
  refine solvable_size _ _ _ _ _ D g hb hd
    (lhs_definite ops var D dt hdt hvar .dynamicVelocity _ ⟨⟨o3.nonneg⟩, ⟨o1.nonneg⟩, ⟨o2.nonneg⟩, ?_⟩ lhs h1)
  rw [hacc]
  exact Or.inr (Or.inl (C73_mass3 hv hn density hdensity hall D))

end

/-- The column in a dynamic problem, solved exactly. -/
noncomputable def columnDynamic : Engine ℚ where
  grid := { nodesCount := 9, dimension := 3, nodes := columnNodes 2 }
  cls := .dynamicGlobal
  kind := .dynamicVelocity
  ops := { exampleOps with
    nodesCount := 9
    dimension := 3
    acceleration := Space.acceleration 9 (basicMatrices3 columnMesh (columnNodes (2 : ℚ))).U 5
    viscosity := Space.constitutive 9 (basicMatrices3 columnMesh (columnNodes (2 : ℚ))).W 4 2
    elasticity := Space.constitutive 9 (basicMatrices3 columnMesh (columnNodes (2 : ℚ))).W 3 1
    force := fun _ r => r }
  boundaries := columnBoundaries
  solve := fun s _ => exactSolution 27 s.system

/-- The hypotheses of `C71_space`, `C72_space_partial` and `C73_space` are met by the column, the base of
which cannot move horizontally but can be lifted. -/
example : SpaceBody columnMesh (columnNodes 2) 5 3 1 4 2 columnDynamic (fun r => r < 2 * 9 ∧ r % 9 < 3) (1 / 2) ∧
    (∀ p < 9, ∃ t ∈ columnMesh, p ∈ t) ∧
    ∀ r < 3 * 9, (r < 2 * 9 ∧ r % 9 < 3) → (fun r => if r / 9 = 2 then (1 : ℚ) else 0) r = 0 := by
  have hd : DirichletData 9 2 columnBoundaries (fun r => r < 2 * 9 ∧ r % 9 < 3) fun _ => 0 := by
    have hmod : ∀ j node : ℕ, ([0, 1, 2] : List ℕ)[j]? = some node → node = j ∧ j < 3 := by
      intro j node h
      obtain ⟨hj, h⟩ := List.getElem?_eq_some_iff.1 h
      simp only [List.length_cons, List.length_nil] at hj
      interval_cases j <;> simp at h <;> omega
    refine ⟨fun r => ⟨?_, ?_⟩, ?_⟩
    · rintro ⟨h1, h2⟩
      refine ⟨0, _, List.mem_singleton.2 rfl, r / 9, by omega, r % 9, r % 9, ?_, by omega, rfl⟩
      have : r % 9 = 0 ∨ r % 9 = 1 ∨ r % 9 = 2 := by omega
      rcases this with h | h | h <;> rw [h] <;> rfl
    · rintro ⟨v, b, hb, d, hd, j, node, hj, hx, -⟩
      simp only [columnBoundaries, List.mem_singleton] at hb
      subst hb
      have := hmod j node hj
      omega
    · rintro x v ⟨b, hb, d, hd, j, node, hj, hx, hv⟩
      simp only [columnBoundaries, List.mem_singleton] at hb
      subst hb
      exact hv
  have hn := column_nondegenerate (2 : ℚ) (by norm_num)
  have hall : ∀ p < 9, ∃ t ∈ columnMesh, p ∈ t := by unfold columnMesh; decide
  refine ⟨⟨rfl, ⟨.DynamicDisplacementProblem, ⟨.dynamic, by decide +kernel, by decide +kernel⟩,
    Or.inl (by decide +kernel)⟩, by decide, rfl, column_valid, hn, rfl, rfl, rfl, column_data.1, hd, ?_⟩, hall, ?_⟩
  · intro S guess var hdt h
    change Solves 27 S.system (exactSolution 27 S.system)
    exact exactSolution_solves 27 _ (C74_space column_valid hn hall 5 3 1 4 2 (by norm_num) (by norm_num)
      (by norm_num) (by norm_num) (by norm_num) columnDynamic.ops rfl rfl rfl rfl rfl _ _ _ column_data.1 hd
      var (1 / 2) (by norm_num) hdt S.system h)
  · intro r hr h
    beta_reduce
    rw [if_neg (by omega)]

end Conmech
