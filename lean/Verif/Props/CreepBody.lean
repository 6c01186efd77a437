import Verif.Props.Creep
/-!
C106 for bodies on triangular meshes, from the assembled operators to the states returned.
-/
namespace Conmech
open Spec

section
variable {V : Type}

/-- The cost of contact depends on the values at the nodes of the mesh only. -/
theorem contactCost_dependsOn (j : ℝ → ℝ → ℝ → ℝ) (d : ContactData ℝ) (N : ℕ)
    (h0 : 0 < d.variableDimension) (hn : ∀ s ∈ d.surfaces, ∀ node ∈ s.edge, node < N) :
    DependsOn (d.variableDimension * N) fun y => contactCostFunctional Real.sqrt (frictionless j) d
      ⟨d.variableDimension * N, y⟩ := by
  intro x y hxy
  beta_reduce
  rw [contactCostFunctional_eq, contactCostFunctional_eq]
  congr 1
  refine List.map_congr_left fun s hs => ?_
  unfold surfaceCost
  refine quadrature_congr _ h0 _ _ _ _ _ _ fun node hnode i hi => ?_
  have hlt := hn s hs node hnode
  rw [nodeValue_known h0 _ _ hlt, nodeValue_known h0 _ _ hlt]
  refine hxy _ ?_
  calc i * N + node < i * N + N := by omega
    _ = (i + 1) * N := by ring
    _ ≤ d.variableDimension * N := Nat.mul_le_mul_right _ hi

/-- The systems of the time steps of a viscous supported body are positive definite and symmetric. -/
theorem quasistatic_lhs {n : ℕ} {D : ℕ → Prop} (ops : Operators ℝ) (var : Variables ℝ) (lhs : ℕ → ℕ → ℝ)
    (dt : ℝ) (hdt : 0 < dt) (hvar : var.timeStep = some dt)
    (h : updateLhs ops var .quasistaticVelocity = .ok lhs) (hA : StoresEnergy n ops.viscosity)
    (hdef : DefiniteOn n D ops.viscosity) (hB : StoresEnergy n ops.elasticity) :
    (∀ r < n, ∀ s < n, lhs r s = lhs s r) ∧
    ∀ x : ℕ → ℝ, Still n D x → (∃ r < n, x r ≠ 0) → 0 < quad n lhs x := by
  obtain rfl : (fun r s => ops.viscosity r s + ops.elasticity r s * dt) = lhs := by
    simpa [updateLhs, quasistaticLhs, hvar, required, bind, Except.bind, pure, Except.pure] using h
  refine ⟨fun r hr s hs => ?_, fun x hx hne => ?_⟩
  · beta_reduce
    rw [hA.symm r hr s hs, hB.symm r hr s hs]
  · have e1 : quad n (fun r s => ops.viscosity r s + ops.elasticity r s * dt) x =
        quad n ops.viscosity x + dt * quad n ops.elasticity x := by
      simp only [quad_eq_act, act, Finset.mul_sum, ← Finset.sum_add_distrib]
      exact Finset.sum_congr rfl fun r _ => Finset.sum_congr rfl fun s _ => by ring
    have h2 := hB.nonneg x
    have h3 : 0 < quad n ops.viscosity x := by
      refine lt_of_le_of_ne (hA.nonneg x) fun h0 => ?_
      obtain ⟨r, hr, hxr⟩ := hne
      exact hxr (hdef x hx h0.symm r hr)
    rw [e1]
    have h5 : 0 ≤ dt * quad n ops.elasticity x := by positivity
    linarith

/-- C106: a viscous supported body on a triangular mesh in contact with an obstacle of the slope law.
There is exactly one quasistatic motion from the initial displacement, and the displacements of the states
returned by `solve` are at most a multiple of the time step away from it. -/
theorem C106_body {c : ProblemClass} (e : Engine ℝ) (hk : e.kind = .quasistaticVelocity)
    (hr : Registered c e.cls e.kind) (hne : e.cls ≠ .direct) (hdim : e.ops.dimension = 2)
    {elements : List (List ℕ)} {nodes : ℕ → ℕ → ℝ} (hve : ValidElements 2 e.ops.nodesCount elements)
    (hnd : Nondegenerate2 elements nodes)
    (mu lam theta zeta : ℝ) (hmu : 0 ≤ mu) (hlam : 0 ≤ lam)
    (htheta : 0 < theta) (hzeta : 0 ≤ zeta)
    (hel : e.ops.elasticity =
      Plane.constitutive e.ops.nodesCount (basicMatrices2 elements nodes).W mu lam)
    (hvis : e.ops.viscosity =
      Plane.constitutive e.ops.nodesCount (basicMatrices2 elements nodes).W theta zeta)
    (D : ℕ → Prop) [DecidablePred D] (hv : ValidBoundaries e.ops.nodesCount e.boundaries)
    (hd : DirichletData e.ops.nodesCount 2 e.boundaries D fun _ => 0)
    (hh : ∀ p < e.ops.nodesCount,
      Held elements (fun q => q < e.ops.nodesCount ∧ D q ∧ D (e.ops.nodesCount + q)) p)
    (slope : ℝ) (hslope : 0 ≤ slope) (d : ContactData ℝ) (hd2 : d.variableDimension = 2)
    (hn : ∀ s ∈ d.surfaces, ∀ node ∈ s.edge, node < e.ops.nodesCount)
    (hap : ContactApart e.ops.nodesCount D d)
    (data : SolverState ℝ → ContactData ℝ)
    (hdata : ∀ S, (data S).variableDimension = 2 ∧ (data S).nodes = d.nodes ∧
      (data S).surfaces = d.surfaces)
    (impl : SolverState ℝ → (ℕ → ℝ) → ℕ → ℝ)
    (hsolve : ∀ S guess, e.solve S guess =
      solverSolve (impl S) e.ops.nodesCount 2 e.boundaries guess)
    (hs : ∀ (S : SolverState ℝ) (guess : ℕ → ℝ) (var : Variables ℝ) (dt : ℝ), 0 < dt →
      var.timeStep = some dt →
      StatementKind.quasistaticVelocity.update e.ops e.boundaries var = .ok S.system →
      Minimises (fun y => costFunctional Real.sqrt (frictionless (slopePotential slope)) (data S)
        (2 * e.ops.nodesCount) S.system.lhs S.system.rhs ⟨2 * e.ops.nodesCount, y⟩) (impl S guess))
    (T l : ℝ) (hT : 0 ≤ T) (hl : 0 ≤ l)
    (hf : ∀ s ∈ Set.Icc 0 T, ∀ t ∈ Set.Icc 0 T, ∀ r < 2 * e.ops.nodesCount,
      |e.ops.force s r - e.ops.force t r| ≤ l * |s - t|)
    (u₀ : ℕ → ℕ → ℝ) :
    let J := fun y => contactCostFunctional Real.sqrt (frictionless (slopePotential slope)) d
      ⟨2 * e.ops.nodesCount, y⟩
    let CreepOf := fun u v : ℝ → ℕ → ℝ => Creep (2 * e.ops.nodesCount) D
      e.ops.viscosity e.ops.elasticity J e.ops.force 0 T u v ∧
      ∀ r < 2 * e.ops.nodesCount, u 0 r = State.flatten e.grid u₀ r
    ∃ (u v : ℝ → ℕ → ℝ) (C : ℝ), CreepOf u v ∧
      (∀ u' v', CreepOf u' v' → ∀ t ∈ Set.Icc 0 T, ∀ r < 2 * e.ops.nodesCount,
        u' t r = u t r ∧ v' t r = v t r) ∧
      ∀ (a : Engine.Arguments ℝ) (solver : SolverState ℝ) (store : ProductStore ℝ V)
        (rs : List (State ℝ)) (sim : Simulation ℝ V),
        a.initialDisplacement = u₀ → 0 < solver.timeStep →
        solver.currentTime = 0 → e.timeDependentSolve a solver store = .ok (rs, sim) →
        ∀ s ∈ rs, s.time ≤ T →
          strainDistance (2 * e.ops.nodesCount) e.ops.elasticity
            (State.flatten e.grid s.displacement) (u s.time) ≤ solver.timeStep * C := by
  intro J CreepOf
  obtain ⟨-, o2, -, -, -⟩ := C71_operators2 hve hnd 0 mu lam theta zeta 0 le_rfl hmu hlam
    htheta.le hzeta
  obtain ⟨-, o3, -, -, -⟩ := C71_operators2 hve hnd 0 theta zeta mu lam 0 le_rfl htheta.le hzeta hmu hlam
  rw [← hel] at o2
  rw [← hvis] at o3
  have hdef : DefiniteOn (2 * e.ops.nodesCount) D e.ops.viscosity := by
    rw [hvis]; exact C74_elastic2 hve hnd theta zeta htheta hzeta D hh
  have hcs : ∀ dt, 0 < dt → ContactSolve e (2 * e.ops.nodesCount) D dt J := by
    intro dt hdt
    have := C105_law e D d (by omega) (by rw [hd2, hk]; rfl) hv
      (by rw [hd2]; exact hd) dt (by
        rw [hd2, hk]
        exact fun var lhs hvar h => quasistatic_lhs e.ops var lhs dt hdt hvar h o3 hdef o2 |>.1)
      (slopePotential slope) (fun _ _ _ _ _ => rfl) (fun b c => C47_convex slope b c hslope) hn hap data
      (by rw [hd2]; exact hdata) impl (by rw [hd2]; exact hsolve) (by
        rw [hd2, hk]
        exact fun S guess var hvar h => hs S guess var dt hdt hvar h)
    rw [hd2] at this
    exact this
  have hJ : ConvexVec J :=
    C48_contact_convex Real.sqrt isSqrt_real _ d (fun s _ sn st =>
      C48_density_convex _ _ _ _ _ _ (C47_convex slope sn d.dt hslope)) _
  have hJn : DependsOn (2 * e.ops.nodesCount) J := by
    have := contactCost_dependsOn (slopePotential slope) d e.ops.nodesCount (by omega) hn
    rw [hd2] at this
    exact this
  obtain ⟨u, v, C, hm, h0, hC⟩ := C106_converges (V := V) e hk hr hne hdim D hv hd o3 hdef o2 J hJ hJn
    T l hT hl hf hcs u₀
  refine ⟨u, v, C, ⟨hm, h0⟩, fun u' v' h' t ht r hr => ?_, hC⟩
  exact C106_unique ⟨o3.nonneg⟩ o2 hdef h'.1 hm (fun r hr => (h'.2 r hr).trans (h0 r hr).symm) t ht r hr

/-- C106: minimisers as required above exist for every time step. -/
theorem C106_solver (ops : Operators ℝ)
    {elements : List (List ℕ)} {nodes : ℕ → ℕ → ℝ} (hve : ValidElements 2 ops.nodesCount elements)
    (hnd : Nondegenerate2 elements nodes)
    (mu lam theta zeta : ℝ) (hmu : 0 ≤ mu) (hlam : 0 ≤ lam) (htheta : 0 < theta) (hzeta : 0 ≤ zeta)
    (hel : ops.elasticity = Plane.constitutive ops.nodesCount (basicMatrices2 elements nodes).W mu lam)
    (hvis : ops.viscosity = Plane.constitutive ops.nodesCount (basicMatrices2 elements nodes).W theta zeta)
    (bs : List (CondBoundary ℝ))
    (D : ℕ → Prop) [DecidablePred D] (hv : ValidBoundaries ops.nodesCount bs)
    (hd : DirichletData ops.nodesCount 2 bs D fun _ => 0)
    (hh : ∀ p < ops.nodesCount,
      Held elements (fun q => q < ops.nodesCount ∧ D q ∧ D (ops.nodesCount + q)) p)
    (slope : ℝ) (hslope : 0 ≤ slope) (data : SolverState ℝ → ContactData ℝ)
    (hdata : ∀ S, (data S).variableDimension = 2) :
    ∃ impl : SolverState ℝ → (ℕ → ℝ) → ℕ → ℝ, ∀ (S : SolverState ℝ) (guess : ℕ → ℝ) (var : Variables ℝ)
      (dt : ℝ), 0 < dt → var.timeStep = some dt →
      StatementKind.quasistaticVelocity.update ops bs var = .ok S.system →
      Minimises (fun y => costFunctional Real.sqrt (frictionless (slopePotential slope)) (data S)
        (2 * ops.nodesCount) S.system.lhs S.system.rhs ⟨2 * ops.nodesCount, y⟩) (impl S guess) := by
  classical
  obtain ⟨-, o2, -, -, -⟩ := C71_operators2 hve hnd 0 mu lam theta zeta 0 le_rfl hmu hlam
    htheta.le hzeta
  obtain ⟨-, o3, -, -, -⟩ := C71_operators2 hve hnd 0 theta zeta mu lam 0 le_rfl htheta.le hzeta hmu hlam
  rw [← hel] at o2
  rw [← hvis] at o3
  have hdef : DefiniteOn (2 * ops.nodesCount) D ops.viscosity := by
    rw [hvis]; exact C74_elastic2 hve hnd theta zeta htheta hzeta D hh
  refine ⟨fun S _ => if h : ∃ x, Minimises (fun y => costFunctional Real.sqrt
      (frictionless (slopePotential slope)) (data S) (2 * ops.nodesCount) S.system.lhs S.system.rhs
      ⟨2 * ops.nodesCount, y⟩) x then h.choose else fun _ => 0, fun S guess var dt hdt hvar hu => ?_⟩
  have hex : ∃ x, Minimises (fun y => costFunctional Real.sqrt
      (frictionless (slopePotential slope)) (data S) (2 * ops.nodesCount) S.system.lhs S.system.rhs
      ⟨2 * ops.nodesCount, y⟩) x := by
    obtain ⟨lhs, rhs, h2, -, h3⟩ := update_eliminated _ _ _ _ _ hu
    have h3 : S.system = applyDirichlet ops.nodesCount 2 bs ⟨lhs, rhs⟩ := h3
    obtain ⟨x, hx, -⟩ := C89_unique_minimiser (frictionless (slopePotential slope)) (data S)
      (by rw [hdata]; norm_num) (fun s _ sn st =>
        C48_density_convex _ _ _ _ _ _ (C47_convex slope sn _ hslope)) (2 * ops.nodesCount) S.system
      (by
        rw [h3]
        exact C13_positive ops.nodesCount 2 bs ⟨lhs, rhs⟩ D (fun _ => 0) hv hd
          (quasistatic_lhs ops var lhs dt hdt hvar h2 o3 hdef o2).2)
    exact ⟨x, hx⟩
  beta_reduce
  rw [dif_pos hex]
  exact hex.choose_spec

/-! ### A square held by its upper side and touching the ground -/

/-- The corners of the square, counterclockwise. -/
def heldSquareNodes : ℕ → ℕ → ℝ := fun p i =>
  if i = 0 ∧ (p = 1 ∨ p = 2) ∨ i = 1 ∧ (p = 2 ∨ p = 3) then 1 else 0

/-- Its two triangles. -/
def heldSquareElements : List (List ℕ) := [[0, 1, 2], [0, 2, 3]]

/-- The upper corners are held. -/
def heldSquareBoundaries : List (CondBoundary ℝ) := [⟨.list [2, 3], fun _ => 0⟩]

/-- Its operators and a load growing in time. -/
noncomputable def heldSquareOps : Operators ℝ :=
  { dimension := 2, nodesCount := 4
    acceleration := fun _ _ => 0
    viscosity := Plane.constitutive 4 (basicMatrices2 heldSquareElements heldSquareNodes).W 2 3
    elasticity := Plane.constitutive 4 (basicMatrices2 heldSquareElements heldSquareNodes).W 4 5
    poisson := fun _ _ => 0, thermalExpansion := fun _ _ => 0, thermalConductivity := fun _ _ => 0
    permittivity := fun _ _ => 0, piezoelectricity := fun _ _ => 0
    relaxation := fun _ => .ok fun _ _ => 0
    force := fun t r => t * (r + 1), bodyTemperature := fun _ _ => 0 }

/-- The lower side touches the ground. -/
noncomputable def heldSquareContact : ContactData ℝ :=
  { segmentData 2 with nodes := heldSquareNodes, old := ⟨8, fun _ => 0⟩, staticDisplacement := ⟨8, fun _ => 0⟩ }

theorem heldSquare_boundaries : ValidBoundaries 4 heldSquareBoundaries ∧
    DirichletData 4 2 heldSquareBoundaries (fun r => r < 2 * 4 ∧ 2 ≤ r % 4) (fun _ => 0) := by
  refine ⟨?_, ⟨fun r => ⟨?_, ?_⟩, ?_⟩⟩
  · intro b hb
    simp only [heldSquareBoundaries, List.mem_singleton] at hb
    subst hb
    refine ⟨?_, ?_⟩
    · intro v hv
      simp [nodesOf] at hv
      omega
    · intro i h; simp at h; rcases h with rfl | rfl <;> simp
  · rintro ⟨h1, h2⟩
    have h4 : r % 4 < 4 := Nat.mod_lt _ (by norm_num)
    refine ⟨0, _, List.mem_singleton.2 rfl, r / 4, by omega, r % 4 - 2, r % 4, ?_, by omega, rfl⟩
    have h3 : r % 4 = 2 ∨ r % 4 = 3 := by omega
    rcases h3 with h | h <;> simp [nodesOf, h]
  · rintro ⟨v, b, hb, k, hk, j, n, hn, hr, hv⟩
    simp only [heldSquareBoundaries, List.mem_singleton] at hb
    subst hb
    simp [nodesOf] at hn
    have : n = 2 ∨ n = 3 := by
      rcases j with _ | _ | j
      · left; simpa using hn.symm
      · right; simpa using hn.symm
      · simp at hn
    omega
  · rintro x v ⟨b, hb, k, hk, j, n, hn, hr, hv⟩
    simp only [heldSquareBoundaries, List.mem_singleton] at hb
    subst hb
    exact hv.symm ▸ rfl

theorem heldSquare_mesh : ValidElements 2 4 heldSquareElements ∧ Nondegenerate2 heldSquareElements heldSquareNodes := by
  refine ⟨by unfold ValidElements heldSquareElements; decide, fun e he => ?_⟩
  simp only [heldSquareElements, List.mem_cons, List.not_mem_nil, or_false] at he
  rcases he with rfl | rfl <;> simp [det2, vertices, heldSquareNodes]

theorem heldSquare_held : ∀ p < 4, Held heldSquareElements
    (fun q => q < 4 ∧ (q < 2 * 4 ∧ 2 ≤ q % 4) ∧ (4 + q < 2 * 4 ∧ 2 ≤ (4 + q) % 4)) p := by
  have h2 : Held heldSquareElements
    (fun q => q < 4 ∧ (q < 2 * 4 ∧ 2 ≤ q % 4) ∧ (4 + q < 2 * 4 ∧ 2 ≤ (4 + q) % 4)) 2 :=
    .fixed _ (by norm_num)
  have h3 : Held heldSquareElements
    (fun q => q < 4 ∧ (q < 2 * 4 ∧ 2 ≤ q % 4) ∧ (4 + q < 2 * 4 ∧ 2 ≤ (4 + q) % 4)) 3 :=
    .fixed _ (by norm_num)
  have h0 := Held.triangle [0, 2, 3] (by simp [heldSquareElements]) 1 2 0 (by norm_num) (by norm_num)
    (by norm_num) (by norm_num) h2 h3
  have h1 := Held.triangle [0, 1, 2] (by simp [heldSquareElements]) 0 2 1 (by norm_num) (by norm_num)
    (by norm_num) (by norm_num) h0 h2
  intro p hp
  interval_cases p
  exacts [h0, h1, h2, h3]

/-- All hypotheses of `C106_body` are met by the square: its runs converge to the quasistatic motion as
the time steps get small. -/
example (store : ProductStore ℝ V) (solver : SolverState ℝ) (h0 : solver.currentTime = 0) :
    ∃ e : Engine ℝ, e.kind = .quasistaticVelocity ∧ e.ops = heldSquareOps ∧ e.boundaries = heldSquareBoundaries ∧
    ∃ (u v : ℝ → ℕ → ℝ) (C : ℝ),
      Creep 8 (fun r => r < 2 * 4 ∧ 2 ≤ r % 4) heldSquareOps.viscosity
        heldSquareOps.elasticity (fun y => contactCostFunctional Real.sqrt
          (frictionless (slopePotential 10)) heldSquareContact ⟨8, y⟩) heldSquareOps.force 0 1 u v ∧
      ∀ (dt : ℝ) (a : Engine.Arguments ℝ), 0 < dt → a.initialDisplacement = (fun _ _ => 0) →
        a.products = [] →
        ∃ (rs : List (State ℝ)) (sim : Simulation ℝ V),
          e.timeDependentSolve a { solver with timeStep := dt } store = .ok (rs, sim) ∧
          ∀ s ∈ rs, s.time ≤ 1 → strainDistance 8 heldSquareOps.elasticity
            (State.flatten e.grid s.displacement) (u s.time) ≤ dt * C := by
  obtain ⟨impl, himpl⟩ := C106_solver heldSquareOps heldSquare_mesh.1 heldSquare_mesh.2 4 5 2 3
    (by norm_num) (by norm_num) (by norm_num) (by norm_num) rfl rfl heldSquareBoundaries _
    heldSquare_boundaries.1 heldSquare_boundaries.2 heldSquare_held 10 (by norm_num) (fun _ => heldSquareContact)
    (fun _ => rfl)
  have hreg : Registered .QuasistaticDisplacementProblem .quasistaticSchur .quasistaticVelocity :=
    ⟨⟨.quasistatic, by decide +kernel, by decide +kernel⟩, Or.inl (by decide +kernel)⟩
  let e : Engine ℝ :=
    { grid := ⟨4, 2, heldSquareNodes⟩, cls := .quasistaticSchur, kind := .quasistaticVelocity, ops := heldSquareOps
      boundaries := heldSquareBoundaries
      solve := fun S guess => solverSolve (impl S) 4 2 heldSquareBoundaries guess }
  obtain ⟨u, v, C, hm, -, hC⟩ := C106_body (V := V) e
    rfl hreg SolverClass.noConfusion rfl heldSquare_mesh.1 heldSquare_mesh.2 4 5 2 3
    (by norm_num) (by norm_num) (by norm_num) (by norm_num) rfl rfl
    (fun r => r < 2 * 4 ∧ 2 ≤ r % 4) heldSquare_boundaries.1 heldSquare_boundaries.2 heldSquare_held 10 (by norm_num)
    heldSquareContact rfl
    (by
      intro s hs node hn
      simp only [heldSquareContact, segmentData, List.mem_singleton] at hs
      subst hs
      change node < 4
      rcases List.mem_pair.1 hn with h | h <;> omega)
    (by
      intro s hs node hn i hi
      simp only [heldSquareContact, segmentData, List.mem_singleton] at hs
      subst hs
      change ¬ (i * 4 + node < 2 * 4 ∧ 2 ≤ (i * 4 + node) % 4)
      rcases List.mem_pair.1 hn with h | h <;> omega)
    (fun _ => heldSquareContact) (fun _ => ⟨rfl, rfl, rfl⟩) impl (fun _ _ => rfl) himpl 1 8 (by norm_num)
    (by norm_num)
    (by
      intro s _ t _ r hr
      have hr' : (r : ℝ) + 1 ≤ 8 := by
        have : r < 8 := hr
        have : r + 1 ≤ 8 := this
        exact_mod_cast this
      change |s * ((r : ℝ) + 1) - t * (r + 1)| ≤ 8 * |s - t|
      rw [← sub_mul, abs_mul, abs_of_nonneg (by positivity : (0 : ℝ) ≤ r + 1), mul_comm]
      exact mul_le_mul_of_nonneg_right hr' (abs_nonneg _))
    (fun _ _ => 0)
  refine ⟨e, rfl, rfl, rfl, u, v, C, hm.1, fun dt a hdt h1 h3 => ?_⟩
  obtain ⟨rs, sim, h⟩ := C105_runs e hreg SolverClass.noConfusion (fun _ => ⟨_, rfl⟩) a h3
    { solver with timeStep := dt } store
  exact ⟨rs, sim, h, hC a { solver with timeStep := dt } store rs sim h1 hdt h0 h⟩

end
end Conmech
