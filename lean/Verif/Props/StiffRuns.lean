import Verif.Props.StiffLimit
/-!
C114, runs: what static solvers return on very stiff obstacles and for very high heat exchange.
-/
namespace Conmech
open Spec

theorem init_fields (inv : ℕ → (ℕ → ℕ → ℝ) → ℕ → ℕ → ℝ) (cls : SolverClass) (kind : StatementKind)
    (ops : Operators ℝ) (bs : List (CondBoundary ℝ)) (C : ℕ) (dt : ℝ) (s : SolverState ℝ)
    (h : solverInit inv cls kind ops bs C false dt = .ok s) :
    s.vVector = (fun _ => 0) ∧ s.schur = if cls.isSchur then
      some (SchurSolver.init inv ops.nodesCount C (kind.dimensionIn ops.dimension) false s.system) else none := by
  unfold solverInit at h
  cases hk : kind.update ops bs (K := ℝ)
      { absement := some fun _ => 0, displacement := some fun _ => 0, velocity := some fun _ => 0,
        temperature := some fun _ => 0, electricPotential := some fun _ => 0, timeStep := some dt,
        time := some 0 } with
  | error e => simp [hk, bind, Except.bind] at h
  | ok S =>
    simp only [hk, bind, Except.bind, pure, Except.pure, Except.ok.injEq] at h
    subst h
    exact ⟨rfl, rfl⟩

section solve
variable {dim : ℕ} {ops : Operators ℝ} {bs : List (CondBoundary ℝ)} {S : System ℝ} {D : ℕ → Prop} [DecidablePred D]
  {g : ℕ → ℝ} {nodes : ℕ → ℕ → ℝ} {surfaces : List (Surface ℝ)} {φ : ℝ → ℝ} {ψ : List ℝ → ℝ} {C len : ℕ}
  {cls : SolverClass}

/-- C114. What a static optimisation solver returns for a law of the contact surfaces, whether convex or not:
a field of least energy. -/
theorem C114_found (inv : ℕ → (ℕ → ℕ → ℝ) → ℕ → ℕ → ℝ) (hinv : InvContract inv)
    (minimise : ℕ → ((ℕ → ℝ) → ℝ) → (ℕ → ℝ) → ℕ → ℝ) (hm : MinimiseContract minimise)
    (h12 : dim = 1 ∨ dim = 2) (kind : StatementKind) (hkind : kind.dimensionIn ops.dimension = dim)
    (hv : ValidBoundaries ops.nodesCount bs) (hd : DirichletData ops.nodesCount dim bs D g)
    (hA : StoresEnergy (dim * ops.nodesCount) S.lhs) (hdef : DefiniteOn (dim * ops.nodesCount) D S.lhs)
    (hφ : Continuous φ) (hφ0 : ∀ r, 0 ≤ φ r) (hψ : Friction dim surfaces ψ)
    (hsuit : MethodFits ops.nodesCount C dim len D g surfaces cls) (s : SolverState ℝ)
    (hsys : s.system = applyDirichlet ops.nodesCount dim bs S)
    (hschur : s.schur = if cls.isSchur then some (SchurSolver.init inv ops.nodesCount C dim false s.system) else none)
    (hold : s.vVector = fun _ => 0) (guess : ℕ → ℝ) :
    LeastUnder (dim * ops.nodesCount) D g S (obstacleCost dim ops.nodesCount nodes surfaces φ ψ) (fun _ => True)
      (optimisedSolve minimise ⟨Real.sqrt, obstacleLaw φ ψ, nodes, surfaces⟩ kind ops bs len s guess) := by
  have h0 : 0 < dim := by omega
  set m : ContactSetting ℝ := ⟨Real.sqrt, obstacleLaw φ ψ, nodes, surfaces⟩ with hmdef
  set d := contactArguments m kind ops s with hddef
  have hdim : d.variableDimension = dim := by
    rw [hddef]
    simp only [contactArguments, C111_dimensions, hkind]
  have hn : ∀ s ∈ surfaces, ∀ node ∈ s.edge, node < ops.nodesCount := by
    cases hsuit with
    | global _ h => exact fun s hs node hnode => (h s hs node hnode).1
    | condensed hC h _ =>
      exact fun s hs node hnode => by rcases h s hs node hnode with h | h <;> omega
  obtain ⟨x₀, hx₀⟩ := exists_law (nodes := nodes) (g := g) (S := S) (Z := fun _ => True) (x₁ := g) h0 hA hdef hn hφ hφ0 hψ
      (fun _ _ _ h => h) (by simp) (fun _ _ _ => rfl) trivial
  unfold optimisedSolve
  rw [hkind]
  cases hsuit with
  | global hl h =>
    subst hl
    obtain ⟨g1, g2⟩ := global_least (φ := φ) (ψ := ψ) (Q := fun _ => True) hv hd hA h0 hdim rfl rfl (fun _ => Iff.rfl) h
    have himpl : optimisedImpl minimise m kind ops (dim * ops.nodesCount) s guess = minimise (dim * ops.nodesCount)
        (fun x => costFunctional Real.sqrt (obstacleLaw φ ψ) d (dim * ops.nodesCount)
          (applyDirichlet ops.nodesCount dim bs S).lhs (applyDirichlet ops.nodesCount dim bs S).rhs
          ⟨dim * ops.nodesCount, x⟩) guess := by
      unfold optimisedImpl
      rw [hschur]
      simp only [SolverClass.isSchur, hsys, hkind]
      rfl
    have e : solverSolve (optimisedImpl minimise m kind ops (dim * ops.nodesCount) s) ops.nodesCount dim bs guess =
        solverSolve (fun _ => optimisedImpl minimise m kind ops (dim * ops.nodesCount) s guess) ops.nodesCount dim bs
          guess := rfl
    rw [e, himpl]
    exact g2 _ guess ⟨trivial, fun y _ => hm (dim * ops.nodesCount)
      (fun x => costFunctional Real.sqrt (obstacleLaw φ ψ) d (dim * ops.nodesCount)
        (applyDirichlet ops.nodesCount dim bs S).lhs (applyDirichlet ops.nodesCount dim bs S).rhs
        ⟨dim * ops.nodesCount, x⟩) guess ⟨x₀, fun y => (g1 x₀ hx₀).2 y trivial⟩ y⟩
  | condensed hC hap hg =>
    obtain ⟨g1, g2⟩ := condensed_least (φ := φ) (ψ := ψ) (P := fun _ => True) (Q := fun _ => True) hv hd hA h0 hdim rfl rfl
      (fun _ => Iff.rfl) hdef inv hinv hC h12 hap hold hg fun _ _ _ => Iff.rfl
    set c := SchurSolver.init inv ops.nodesCount C dim false (applyDirichlet ops.nodesCount dim bs S) with hc
    have himpl : optimisedImpl minimise m kind ops len s = c.solveImpl (fun lhs rhs guess =>
        minimise (dim * C) (fun x => costFunctional Real.sqrt (obstacleLaw φ ψ) d (dim * C) lhs rhs ⟨dim * C, x⟩) guess)
        len := by
      funext guess
      unfold optimisedImpl
      rw [hschur, hsys]
      rfl
    rw [himpl]
    exact g2 _ len guess ⟨trivial, fun yc _ => hm (dim * C)
      (fun x => costFunctional Real.sqrt (obstacleLaw φ ψ) d (dim * C) c.matrices.boundary c.nodeForces
        ⟨dim * C, x⟩) _ ⟨fun k => x₀ (cIdx ops.nodesCount C k),
          fun yc => (g1 x₀ _ hx₀ (contactPart_iff.2 fun _ _ => rfl)).2 yc trivial⟩ yc⟩

theorem meets_plane (N C : ℕ) (hC : 0 < C) (hCN : C ≤ N) (x : ℕ → ℝ) :
    Meets (constr C (2 * N)) x ↔ ∀ node < C, 0 ≤ x (1 * N + node) := by
  obtain ⟨v, h1, h2⟩ := C77_plane_partial N C hC hCN x
  unfold Meets
  rw [h1]
  simpa using h2

/-- C114. What a static solver for plane bodies returns with the method "constrained": a field of least energy
among those in which no contact node has a negative second coordinate. -/
theorem C114_found_constrained (inv : ℕ → (ℕ → ℕ → ℝ) → ℕ → ℕ → ℝ) (hinv : InvContract inv)
    (minimise : ConstrainedMinimiser ℝ) (hm : ConstrainedContract minimise)
    (kind : StatementKind) (hkind : kind.dimensionIn ops.dimension = 2)
    (hv : ValidBoundaries ops.nodesCount bs) (hd : DirichletData ops.nodesCount 2 bs D g)
    (hA : StoresEnergy (2 * ops.nodesCount) S.lhs) (hdef : DefiniteOn (2 * ops.nodesCount) D S.lhs)
    (hφ : Continuous φ) (hφ0 : ∀ r, 0 ≤ φ r) (hψ : Friction 2 surfaces ψ)
    (hC0 : 0 < C) (hCN : C ≤ ops.nodesCount) (hfree : ∀ node < C, ∀ i < 2, ¬ D (i * ops.nodesCount + node))
    (hsuit : MethodFits ops.nodesCount C 2 len D g surfaces cls) (s : SolverState ℝ)
    (hsys : s.system = applyDirichlet ops.nodesCount 2 bs S)
    (hschur : s.schur = if cls.isSchur then some (SchurSolver.init inv ops.nodesCount C 2 false s.system) else none)
    (hold : s.vVector = fun _ => 0) (guess : ℕ → ℝ) :
    ∃ x, constrainedSolve minimise ⟨Real.sqrt, obstacleLaw φ ψ, nodes, surfaces⟩ C kind ops bs len s guess = some x ∧
      LeastUnder (2 * ops.nodesCount) D g S (obstacleCost 2 ops.nodesCount nodes surfaces φ ψ)
        (fun y => ∀ node < C, 0 ≤ y (1 * ops.nodesCount + node)) x := by
  set m : ContactSetting ℝ := ⟨Real.sqrt, obstacleLaw φ ψ, nodes, surfaces⟩ with hmdef
  set d := contactArguments m kind ops s with hddef
  have hdim : d.variableDimension = 2 := by
    rw [hddef]
    simp only [contactArguments, C111_dimensions, hkind]
  have hn : ∀ s ∈ surfaces, ∀ node ∈ s.edge, node < ops.nodesCount := by
    cases hsuit with
    | global _ h => exact fun s hs node hnode => (h s hs node hnode).1
    | condensed hC h _ =>
      exact fun s hs node hnode => by rcases h s hs node hnode with h | h <;> omega
  set Q : (ℕ → ℝ) → Prop := fun y => ∀ node < C, 0 ≤ y (1 * ops.nodesCount + node) with hQ
  have hQD : ∀ y, Q (heldAt D g y) ↔ Q y := fun y => forall_congr' fun node => forall_congr' fun hnode => by
    simp only [heldAt, if_neg (hfree node hnode 1 (by norm_num))]
  obtain ⟨x₀, hx₀⟩ := exists_law (nodes := nodes) (g := g) (S := S) (Z := Q) (x₁ := heldAt D g fun _ => 0) (by norm_num)
      hA hdef hn hφ hφ0 hψ (fun x y h hx node hnode => by rw [← h _ (by omega)]; exact hx node hnode)
      (by
        rw [hQ]
        simp only [Set.ofPred_forall]
        refine isClosed_iInter fun node => isClosed_iInter fun _ => ?_
        exact isClosed_le continuous_const (continuous_atNode ops.nodesCount node 1))
      (heldAt_heldTo D g _ _) ((hQD _).2 fun _ _ => le_rfl)
  unfold constrainedSolve
  rw [hkind]
  cases hsuit with
  | global hl h =>
    subst hl
    obtain ⟨g1, g2⟩ := global_least (φ := φ) (ψ := ψ) (Q := Q) hv hd hA (by norm_num) hdim rfl rfl hQD h
    obtain ⟨v, hv1, -⟩ := C77_plane_partial ops.nodesCount C hC0 hCN guess
    have himpl : constrainedImpl minimise m C kind ops (2 * ops.nodesCount) s guess = some (minimise
        (2 * ops.nodesCount) (fun x => costFunctional Real.sqrt (obstacleLaw φ ψ) d (2 * ops.nodesCount)
          (applyDirichlet ops.nodesCount 2 bs S).lhs (applyDirichlet ops.nodesCount 2 bs S).rhs
          ⟨2 * ops.nodesCount, x⟩) (constr C (2 * ops.nodesCount)) guess) := by
      unfold constrainedImpl
      rw [hschur]
      simp only [SolverClass.isSchur, hsys, hkind, hv1]
      rfl
    rw [himpl]
    refine ⟨_, rfl, g2 _ guess ?_⟩
    have key := hm (2 * ops.nodesCount) (fun x => costFunctional Real.sqrt (obstacleLaw φ ψ) d (2 * ops.nodesCount)
          (applyDirichlet ops.nodesCount 2 bs S).lhs (applyDirichlet ops.nodesCount 2 bs S).rhs
          ⟨2 * ops.nodesCount, x⟩) (constr C (2 * ops.nodesCount)) guess
    simp only [meets_plane ops.nodesCount C hC0 hCN] at key
    exact key ⟨x₀, g1 x₀ hx₀⟩
  | condensed hC hap hg =>
    obtain ⟨g1, g2⟩ := condensed_least (φ := φ) (ψ := ψ) (P := fun xc => ∀ node < C, 0 ≤ xc (1 * C + node)) (Q := Q)
      hv hd hA (by norm_num) hdim rfl rfl hQD hdef inv hinv hC (Or.inr rfl) hap hold hg
      (fun xc x hx => forall_congr' fun node => forall_congr' fun hnode => by
        rw [hx 1 (by norm_num) node hnode])
    set c := SchurSolver.init inv ops.nodesCount C 2 false (applyDirichlet ops.nodesCount 2 bs S) with hc
    obtain ⟨v, hv1, -⟩ := C77_plane_partial C C hC0 le_rfl (c.truncateFreeNodes len guess)
    have himpl : constrainedImpl minimise m C kind ops len s guess = some (c.solveImpl (fun lhs rhs guess =>
        minimise (2 * C) (fun x => costFunctional Real.sqrt (obstacleLaw φ ψ) d (2 * C) lhs rhs ⟨2 * C, x⟩)
          (constr C (2 * C)) guess) len guess) := by
      unfold constrainedImpl
      rw [hschur, hsys, show SolverClass.staticSchur.isSchur = true from rfl, if_pos rfl, ← hc]
      dsimp only
      rw [show c.dimension = 2 from rfl, show c.contactCount = C from rfl, hv1]
    have e : ∀ F, solverSolve (fun _ => c.solveImpl F len guess) ops.nodesCount 2 bs guess =
        solverSolve (c.solveImpl F len) ops.nodesCount 2 bs guess := fun F => rfl
    rw [himpl]
    dsimp only
    rw [e]
    refine ⟨_, rfl, g2 _ len guess ?_⟩
    have key := hm (2 * C) (fun x => costFunctional Real.sqrt (obstacleLaw φ ψ) d (2 * C) c.matrices.boundary
      c.nodeForces ⟨2 * C, x⟩) (constr C (2 * C)) (c.truncateFreeNodes len guess)
    simp only [meets_plane C C hC0 le_rfl] at key
    exact key ⟨fun k => x₀ (cIdx ops.nodesCount C k), g1 x₀ _ hx₀ (contactPart_iff.2 fun _ _ => rfl)⟩

end solve

section runs

/-- `u` is the displacement returned by `StaticSolver.solve` with a new solver, for a body described by `ops`,
supported by `bs`, the first `C` nodes of which are on contact surfaces. `solve` describes `step_solver.solve`:
the length of the initial guess, the solver, the guess and the result; in the run the system is that of the new solver. -/
def Spec.StaticRun (ops : Operators ℝ) (bs : List (CondBoundary ℝ)) (C : ℕ) (D : ℕ → Prop) (g : ℕ → ℝ)
    (surfaces : List (Surface ℝ)) (solve : ℕ → SolverState ℝ → (ℕ → ℝ) → (ℕ → ℝ) → Prop) (u : ℕ → ℝ) : Prop :=
  ∃ (V : Type) (e : Engine ℝ) (inv : ℕ → (ℕ → ℕ → ℝ) → ℕ → ℕ → ℝ) (len : ℕ) (dt : ℝ) (solver : SolverState ℝ)
    (initial : ℕ → ℕ → ℝ) (products : List ℕ) (store : ProductStore ℝ V) (s : State ℝ) (sim : Simulation ℝ V),
    e.kind = .staticDisplacement ∧ e.ops = ops ∧ e.boundaries = bs ∧ InvContract inv ∧
    MethodFits ops.nodesCount C 2 len D g surfaces e.cls ∧ (∀ S guess, S.system = solver.system → S.schur = solver.schur →
      solve len S guess (e.solve S guess)) ∧
    solverInit inv e.cls .staticDisplacement ops bs C false dt = .ok solver ∧
    e.staticSolve initial products solver store = .ok (s, sim) ∧ u = State.flatten e.grid s.displacement

/-- The run with a law of the contact surfaces. -/
def Spec.LawRun (ops : Operators ℝ) (bs : List (CondBoundary ℝ)) (C : ℕ) (D : ℕ → Prop) (g : ℕ → ℝ)
    (nodes : ℕ → ℕ → ℝ) (surfaces : List (Surface ℝ)) (φ : ℝ → ℝ) (ψ : List ℝ → ℝ) (u : ℕ → ℝ) : Prop :=
  ∃ minimise, MinimiseContract minimise ∧ StaticRun ops bs C D g surfaces (fun len S guess x => x =
    optimisedSolve minimise ⟨Real.sqrt, obstacleLaw φ ψ, nodes, surfaces⟩ .staticDisplacement ops bs len S guess) u

/-- The run with the method "constrained", and a law without normal part. -/
def Spec.RigidRun (ops : Operators ℝ) (bs : List (CondBoundary ℝ)) (C : ℕ) (D : ℕ → Prop) (g : ℕ → ℝ)
    (nodes : ℕ → ℕ → ℝ) (surfaces : List (Surface ℝ)) (ψ : List ℝ → ℝ) (u : ℕ → ℝ) : Prop :=
  ∃ minimise, ConstrainedContract minimise ∧ StaticRun ops bs C D g surfaces (fun len S guess x =>
    constrainedSolve minimise ⟨Real.sqrt, obstacleLaw (fun _ => 0) ψ, nodes, surfaces⟩ C .staticDisplacement ops bs len S
      guess = some x) u

theorem fits_static {N C dim len : ℕ} {D : ℕ → Prop} {g : ℕ → ℝ} {surfaces : List (Surface ℝ)} {cls : SolverClass}
    (h : MethodFits N C dim len D g surfaces cls) : StaticClass cls := by
  cases h
  · exact Or.inr (Or.inl rfl)
  · exact Or.inr (Or.inr rfl)

/-- What is solved in a static run. -/
theorem staticRun_solved {ops : Operators ℝ} (hdim : ops.dimension = 2) {bs : List (CondBoundary ℝ)} {C : ℕ}
    {D : ℕ → Prop} {g : ℕ → ℝ} {surfaces : List (Surface ℝ)} {solve : ℕ → SolverState ℝ → (ℕ → ℝ) → (ℕ → ℝ) → Prop}
    {u : ℕ → ℝ} (h : StaticRun ops bs C D g surfaces solve u) :
    ∃ cls inv len S guess, InvContract inv ∧ MethodFits ops.nodesCount C 2 len D g surfaces cls ∧
      S.system = applyDirichlet ops.nodesCount 2 bs ⟨ops.elasticity, ops.force 0⟩ ∧
      (S.schur = if cls.isSchur then some (SchurSolver.init inv ops.nodesCount C 2 false S.system) else none) ∧
      S.vVector = (fun _ => 0) ∧ solve len S guess u := by
  obtain ⟨V, e, inv, len, dt, solver, initial, products, store, s, sim, h1, h2, h3, h4, h5, h6, h7, h8, rfl⟩ := h
  have hcls := fits_static h5
  obtain ⟨k1, k2⟩ := init_fields _ _ _ _ _ _ _ _ h7
  have k3 := (init_static _ _ _ _ _ _ _ _).1 h7
  rw [hdim] at k3
  simp only [StatementKind.dimensionIn, hdim] at k2
  simp only [Engine.staticSolve, iterate_static e hcls, bind, Except.bind, Engine.run, pure, Except.pure,
    Engine.steps, Int.toNat_one] at h8
  split at h8
  · cases h8
  · rename_i sim1 h9
    simp only [Except.ok.injEq, Prod.mk.injEq] at h8
    split at h9
    · cases h9
    · rename_i sim2 h10
      cases h9
      obtain ⟨solver', a1, _, a3⟩ := (e.step_ok_iff _ _ _).1 h10
      rw [iterate_static e hcls] at a3
      simp only [Engine.advance, Option.some.injEq, Prod.mk.injEq] at a1
      obtain ⟨b1, b2⟩ := a1
      rw [← h8.1, ← b1, withDisplacement_displacement]
      refine ⟨e.cls, inv, len, _, _, h4, h5, ?_, ?_, ?_, h6 _ _ ?_ ?_⟩
      · exact k3
      · exact k2
      · exact k1
      · rfl
      · rfl

/-- C114 (partial: the obstacle is below the body and there is no gap, see `C114_constraint_wrong`). A plane body
on a floor, with or without friction. With the law `α φ`, by the global or the condensed
method, the displacements which are returned tend to those returned by the method "constrained": no contact
node sinks deeper than `K / α`, and the elastic energy of the difference, and the square of the difference at
each node, are at most `K / α`. `K` depends neither on `α` nor on the solvers. -/
theorem C114_rigid_partial {ops : Operators ℝ} (hdim : ops.dimension = 2) {bs : List (CondBoundary ℝ)} {D : ℕ → Prop}
    [DecidablePred D] {g : ℕ → ℝ} (hv : ValidBoundaries ops.nodesCount bs)
    (hd : DirichletData ops.nodesCount 2 bs D g) (hA : StoresEnergy (2 * ops.nodesCount) ops.elasticity)
    (hdef : DefiniteOn (2 * ops.nodesCount) D ops.elasticity) {nodes : ℕ → ℕ → ℝ} {surfaces : List (Surface ℝ)}
    (hlen : ∀ s ∈ surfaces, 0 < surfaceLength Real.sqrt nodes s.edge)
    (hnormal : ∀ s ∈ surfaces, s.normal 0 = 0 ∧ s.normal 1 = -1) {C : ℕ} (hC0 : 0 < C) (hCN : C ≤ ops.nodesCount)
    (hfree : ∀ node < C, ∀ i < 2, ¬ D (i * ops.nodesCount + node))
    (hcontact : ∀ node < C, ∃ s ∈ surfaces, node ∈ s.edge) (hap : SupportsApart ops.nodesCount C 2 D surfaces)
    (hg : HeldOnContact ops.nodesCount 2 D g surfaces fun _ => 0)
    {φ : ℝ → ℝ} (hφ : Repels 0 φ) (hc : Continuous φ) {ψ : List ℝ → ℝ} (hψ : Friction 2 surfaces ψ) :
    ∃ K, 0 ≤ K ∧ ∀ α, 0 < α → ∀ u u', LawRun ops bs C D g nodes surfaces (fun v => α * φ v) ψ u →
      RigidRun ops bs C D g nodes surfaces ψ u' →
      (∀ node < C, -(K / α) ≤ u (ops.nodesCount + node) ∧ 0 ≤ u' (ops.nodesCount + node)) ∧
      quad (2 * ops.nodesCount) ops.elasticity (fun i => u i - u' i) ≤ K / α ∧
      ∀ r < 2 * ops.nodesCount, (u r - u' r) ^ 2 ≤ K / α := by
  have hn : ∀ s ∈ surfaces, ∀ node ∈ s.edge, node < ops.nodesCount := fun s hs node hnode => by
    rcases hap s hs node hnode with h | h <;> omega
  have hν : ∀ s ∈ surfaces, ∀ (x : ℕ → ℝ) node, normalComponent 2 (atNode ops.nodesCount x node) s.normal =
      -x (ops.nodesCount + node) := fun s hs x node => by
    simp only [normalComponent, OfNat.ofNat_ne_one, if_false, Finset.sum_range_succ, Finset.sum_range_zero,
      (hnormal s hs).1, (hnormal s hs).2, atNode, Nat.one_mul]
    ring
  set w : ℕ → ℝ := fun r => if D r then 0 else 1 with hw
  have hlift : CanLift 2 ops.nodesCount D surfaces w := by
    refine ⟨fun r _ hD => by simp [hw, hD], fun s hs node hnode => ?_⟩
    rcases hap s hs node hnode with h | h
    · right
      rw [hν s hs]
      have := h.2 1 (by norm_num)
      rw [Nat.one_mul] at this
      simp [hw, this]
    · exact Or.inl h.2.2
  set S : System ℝ := ⟨ops.elasticity, ops.force 0⟩ with hS
  have hheld : ∀ s ∈ surfaces, ∀ node ∈ s.edge, (∀ i < 2, D (i * ops.nodesCount + node)) →
      g (ops.nodesCount + node) = 0 := fun s hs node hnode h => by
    have := hg s hs node hnode 1 (by norm_num) (h 1 (by norm_num))
    rw [Nat.one_mul] at this
    exact this.symm
  obtain ⟨-, x₀, h₀, huniq⟩ := C114_obstacle_exists (nodes := nodes) (g := g) (S := S) (by norm_num) hA hdef hn hφ hc hψ
    hlift (fun s hs node hnode h => by
      rw [hν s hs, hheld s hs node hnode h]
      simp)
  obtain ⟨K, hK, hest⟩ := C114_obstacle (nodes := nodes) (by norm_num) hA hdef hn hlen hφ hψ hlift h₀
  refine ⟨K, hK, fun α hα u u' ⟨minimise, hm, hu⟩ ⟨minimise', hm', hu'⟩ => ?_⟩
  obtain ⟨cls, inv, len, s, guess, a1, a2, a3, a4, a5, a6⟩ := staticRun_solved hdim hu
  obtain ⟨cls', inv', len', s', guess', b1, b2, b3, b4, b5, b6⟩ := staticRun_solved hdim hu'
  have hkind : StatementKind.staticDisplacement.dimensionIn ops.dimension = 2 := by
    simp [StatementKind.dimensionIn, hdim]
  have hfound := C114_found (nodes := nodes) (φ := fun v => α * φ v) inv a1 minimise hm (Or.inr rfl) .staticDisplacement
    hkind hv hd hA hdef (continuous_const.mul hc) (fun r => mul_nonneg hα.le (hφ.nonneg r)) hψ a2 s a3 a4 a5 guess
  rw [← a6] at hfound
  obtain ⟨x, hx, hfound'⟩ := C114_found_constrained (nodes := nodes) (φ := fun _ => (0 : ℝ)) inv' b1 minimise' hm'
    .staticDisplacement hkind hv hd hA hdef continuous_const (fun _ => le_rfl) hψ hC0 hCN hfree b2 s' b3 b4 b5 guess'
  rw [b6, Option.some.injEq] at hx
  subst hx
  have hiff : ∀ y, HeldTo (2 * ops.nodesCount) D g y → (Outside 2 ops.nodesCount surfaces 0 y ↔
      ∀ node < C, 0 ≤ y (1 * ops.nodesCount + node)) := fun y hy => by
    refine ⟨fun h node hnode => ?_, fun h s hs node hnode => ?_⟩
    · obtain ⟨s, hs, hmem⟩ := hcontact node hnode
      have := h s hs node hmem
      rw [hν s hs] at this
      rw [Nat.one_mul]
      linarith
    · rw [hν s hs]
      rcases hap s hs node hnode with k | k
      · have := h node k.1
        rw [Nat.one_mul] at this
        linarith
      · have hD := k.2.2 1 (by norm_num)
        rw [Nat.one_mul] at hD
        rw [hy _ (by omega) hD, hheld s hs node hnode k.2.2]
        simp
  have hsame := huniq u' ⟨hfound'.held, (hiff _ hfound'.held).2 hfound'.allowed, fun y hy hyo =>
    hfound'.least y hy ((hiff y hy).1 hyo)⟩
  obtain ⟨c1, c2, c3⟩ := hest α hα u ⟨hfound.held, fun v hv => hfound.least v hv trivial⟩
  refine ⟨fun node hnode => ?_, ?_, fun r hr => ?_⟩
  · obtain ⟨s, hs, hmem⟩ := hcontact node hnode
    have k1 := c1 s hs node hmem
    have k2 := hfound'.allowed node hnode
    rw [hν s hs] at k1
    rw [Nat.one_mul] at k2
    exact ⟨by linarith, k2⟩
  · rw [quad_same (y := fun i => u i - x₀ i) fun r hr => by rw [hsame r hr]]
    exact c2
  · rw [hsame r hr]
    exact c3 r hr

/-- `T` is the temperature returned by `PoissonSolver.solve` with a new optimisation solver, for a body with a
law of heat exchange. -/
def Spec.ExchangeRun (ops : Operators ℝ) (bs : List (CondBoundary ℝ)) (C : ℕ) (D : ℕ → Prop) (g : ℕ → ℝ)
    (nodes : ℕ → ℕ → ℝ) (surfaces : List (Surface ℝ)) (φ : ℝ → ℝ) (T : ℕ → ℝ) : Prop :=
  ∃ (e : Engine ℝ) (inv : ℕ → (ℕ → ℕ → ℝ) → ℕ → ℕ → ℝ) (minimise : ℕ → ((ℕ → ℝ) → ℝ) → (ℕ → ℝ) → ℕ → ℝ) (len : ℕ)
    (dt : ℝ) (solver solver' : SolverState ℝ) (s : State ℝ),
    e.kind = .staticPoisson ∧ e.ops = ops ∧ e.boundaries = bs ∧ InvContract inv ∧ MinimiseContract minimise ∧
    MethodFits ops.nodesCount C 1 len D g surfaces e.cls ∧
    e.solve = optimisedSolve minimise ⟨Real.sqrt, obstacleLaw φ (fun _ => 0), nodes, surfaces⟩ .staticPoisson ops bs len ∧
    solverInit inv e.cls .staticPoisson ops bs C false dt = .ok solver ∧
    e.poissonSolve solver = .ok (s, solver') ∧ s.scalar = .temperature T

/-- `T` is the temperature returned by `PoissonSolver.solve` with a new direct solver, for a body without contact
surfaces. -/
def Spec.WallRun (ops : Operators ℝ) (bs : List (CondBoundary ℝ)) (T : ℕ → ℝ) : Prop :=
  ∃ (e : Engine ℝ) (inv : ℕ → (ℕ → ℕ → ℝ) → ℕ → ℕ → ℝ) (fsolve : RootFinder ℝ) (linalg : LinearSolver ℝ)
    (m : DirectSetting ℝ) (jn : ℝ → ℝ → ℝ → ℝ) (C : ℕ) (dt : ℝ) (solver solver' : SolverState ℝ) (s : State ℝ),
    e.kind = .staticPoisson ∧ e.ops = ops ∧ e.boundaries = bs ∧ e.cls = .direct ∧ RootContract fsolve ∧
    m.surfaces = [] ∧
    (∀ S guess, directSolve fsolve linalg m (.equation (.function jn)) ops.nodesCount 1 bs S.system ops.nodesCount guess =
      .ok (e.solve S guess)) ∧
    solverInit inv e.cls .staticPoisson ops bs C false dt = .ok solver ∧
    e.poissonSolve solver = .ok (s, solver') ∧ s.scalar = .temperature T

/-- What a Poisson solver returns. -/
theorem poissonSolve_scalar {e : Engine ℝ} (hcls : StaticClass e.cls) {solver solver' : SolverState ℝ} {s : State ℝ}
    {T : ℕ → ℝ} (h : e.poissonSolve solver = .ok (s, solver')) (hT : s.scalar = .temperature T) :
    T = e.solve { solver with tVector := fun _ => 0 } fun _ => 0 := by
  simp only [Engine.poissonSolve, iterate_static e hcls, bind, Except.bind, pure, Except.pure,
    Except.ok.injEq, Prod.mk.injEq] at h
  rw [← h.1] at hT
  exact (ScalarField.temperature.inj (show ScalarField.temperature _ = .temperature T from hT)).symm

theorem no_friction (dim : ℕ) (surfaces : List (Surface ℝ)) : Friction dim surfaces fun _ => 0 :=
  ⟨fun _ => le_rfl, fun _ _ x y s t _ _ _ => by simp, 0, le_rfl, fun _ _ _ _ => by simp⟩

/-- C114. A body that exchanges heat with a wall through its contact surfaces. With the law `α φ`, by the global
or the condensed method, the temperatures which are returned tend to those which the direct solver returns if
the contact nodes are held at the temperature `b` of the wall: at no node do they differ by more than `K / α`. `K`
depends neither on `α` nor on the solvers. The law need not be convex. -/
theorem C114_temperature {ops : Operators ℝ} {bs bs' : List (CondBoundary ℝ)} {D : ℕ → Prop} [DecidablePred D]
    {g : ℕ → ℝ} {nodes : ℕ → ℕ → ℝ} {surfaces : List (Surface ℝ)} (hv : ValidBoundaries ops.nodesCount bs)
    (hd : DirichletData ops.nodesCount 1 bs D g) (hA : StoresEnergy ops.nodesCount ops.poisson)
    (hdef : DefiniteOn ops.nodesCount D ops.poisson)
    (hn : ∀ s ∈ surfaces, ∀ node ∈ s.edge, node < ops.nodesCount ∧ ¬ D node)
    (hlen : ∀ s ∈ surfaces, 0 < surfaceLength Real.sqrt nodes s.edge) {b : ℝ} {φ : ℝ → ℝ} (hφ : Attracts b φ)
    (hc : Continuous φ) (hv' : ValidBoundaries ops.nodesCount bs')
    (hd' : DirichletData ops.nodesCount 1 bs' (fun r => D r ∨ ∃ s ∈ surfaces, r ∈ s.edge)
      (fun r => if D r then g r else b)) (C : ℕ) :
    ∃ K, 0 ≤ K ∧ ∀ α, 0 < α → ∀ T T', ExchangeRun ops bs C D g nodes surfaces (fun v => α * φ v) T →
      WallRun ops bs' T' → ∀ r < ops.nodesCount, |T r - T' r| ≤ K / α := by
  classical
  set S : System ℝ := ⟨ops.poisson, ops.bodyTemperature 0⟩ with hS
  set D' : ℕ → Prop := fun r => D r ∨ ∃ s ∈ surfaces, r ∈ s.edge with hD'
  set g' : ℕ → ℝ := fun r => if D r then g r else b with hg'
  have hdef' : DefiniteOn ops.nodesCount D' ops.poisson := fun x hx => hdef x fun r hr h => hx r hr (Or.inl h)
  have hwall : ∀ T', WallRun ops bs' T' → BalancedField ops.nodesCount ops.poisson D' g' (ops.bodyTemperature 0) T' := by
    rintro T' ⟨e, inv, fsolve, linalg, m, jn, C', dt, solver, solver', s, h1, h2, h3, h4, h5, h6, h7, h8, h9, h10⟩
    obtain ⟨u, k1, k2, -⟩ := C113_without_contact ops.nodesCount 1 bs' S D' g' hv' hd' (by rw [Nat.one_mul]; exact hdef')
      fsolve h5 linalg m h6 jn fun _ => 0
    rw [Nat.one_mul] at k1 k2
    have key : ∀ S' : SolverState ℝ, S'.system = applyDirichlet ops.nodesCount 1 bs' S →
        u = e.solve S' fun _ => 0 := fun S' hS' => by
      have k3 := h7 S' fun _ => 0
      rwa [hS', k1, Except.ok.injEq] at k3
    have hsys := (init_static _ _ _ _ _ _ _ _).2 h8
    rw [poissonSolve_scalar (Or.inl h4) h9 h10, ← key { solver with tVector := fun _ => 0 } hsys]
    exact k2
  have hlevel : ∀ y, HeldTo ops.nodesCount D' g' y ↔ HeldTo ops.nodesCount D g y ∧ AtLevel surfaces b y := by
    intro y
    constructor
    · intro h
      refine ⟨fun r hr hD => ?_, fun s hs node hnode => ?_⟩
      · rw [h r hr (Or.inl hD)]; simp [hg', hD]
      · obtain ⟨k1, k2⟩ := hn s hs node hnode
        rw [h node k1 (Or.inr ⟨s, hs, hnode⟩)]; simp [hg', k2]
    · rintro ⟨h1, h2⟩ r hr hD
      by_cases hDr : D r
      · rw [h1 r hr hDr]; simp [hg', hDr]
      · rcases hD with hD | ⟨s, hs, hnode⟩
        · exact absurd hD hDr
        · rw [h2 s hs r hnode]; simp [hg', hDr]
  have hleast : ∀ T', BalancedField ops.nodesCount ops.poisson D' g' (ops.bodyTemperature 0) T' →
      LeastUnder ops.nodesCount D g S (fun _ => 0) (AtLevel surfaces b) T' := fun T' h => by
    have hT := (hlevel T').1 h.values
    refine ⟨hT.1, hT.2, fun y hy hyb => ?_⟩
    have := (C99_least_energy hA h.values).1 h y ((hlevel y).2 ⟨hy, hyb⟩)
    simpa using this
  by_cases hex : ∃ T', WallRun ops bs' T'
  · obtain ⟨T₀, hT₀⟩ := hex
    have h₀ := hleast T₀ (hwall T₀ hT₀)
    obtain ⟨K, hK, hest⟩ := C114_level (nodes := nodes) hA hdef hn hlen hφ h₀
    refine ⟨K, hK, fun α hα T T' hT hT' r hr => ?_⟩
    have hsame : T' r = T₀ r := by
      have k1 := hwall T' hT'
      have k0 := hwall T₀ hT₀
      refine least_unique hA hdef' (J := fun _ => 0) (Z := fun _ => True) (g := g') ?_ (fun _ _ _ _ _ _ _ => trivial)
        (S := S) (x := T₀) (y := T') ?_ ?_ r hr
      · intro x y s t _ _ _; simp
      · exact ⟨k0.values, trivial, fun y hy _ => by simpa using (C99_least_energy hA k0.values).1 k0 y hy⟩
      · exact ⟨k1.values, trivial, fun y hy _ => by simpa using (C99_least_energy hA k1.values).1 k1 y hy⟩
    rw [hsame]
    obtain ⟨e, inv, minimise, len, dt, solver, solver', s, h1, h2, h3, h4, h5, h6, h7, h8, h9, h10⟩ := hT
    have hsol := poissonSolve_scalar (fits_static h6) h9 h10
    rw [h7] at hsol
    obtain ⟨k1, k2⟩ := init_fields _ _ _ _ _ _ _ _ h8
    have k3 := (init_static _ _ _ _ _ _ _ _).2 h8
    have hfound := C114_found (nodes := nodes) (φ := fun v => α * φ v) (ψ := fun _ => 0) (S := S) inv h4 minimise h5
      (Or.inl rfl) .staticPoisson rfl hv hd (by rw [Nat.one_mul]; exact hA) (by rw [Nat.one_mul]; exact hdef)
      (continuous_const.mul hc) (fun r => mul_nonneg hα.le (hφ.nonneg r)) (no_friction 1 surfaces) h6
      { solver with tVector := fun _ => 0 } k3 k2 k1 fun _ => 0
    rw [← hsol, Nat.one_mul] at hfound
    exact hest α hα T ⟨hfound.held, fun v hv => hfound.least v hv trivial⟩ r hr
  · exact ⟨0, le_rfl, fun α _ T T' _ hT' => absurd ⟨T', hT'⟩ hex⟩

/-- C114. The runs return. -/
theorem C114_returns {ops : Operators ℝ} (hdim : ops.dimension = 2) (bs : List (CondBoundary ℝ)) {D : ℕ → Prop}
    {g : ℕ → ℝ} (nodes : ℕ → ℕ → ℝ) {surfaces : List (Surface ℝ)} {C len : ℕ} (hC0 : 0 < C) (hCN : C ≤ ops.nodesCount)
    {cls : SolverClass} (h : MethodFits ops.nodesCount C 2 len D g surfaces cls) (φ : ℝ → ℝ) (ψ : List ℝ → ℝ) :
    (∃ u, LawRun ops bs C D g nodes surfaces φ ψ u) ∧ ∃ u, RigidRun ops bs C D g nodes surfaces ψ u := by
  obtain ⟨⟨inv, hinv⟩, ⟨minimise, hm⟩⟩ := contracts_met
  have hcls := fits_static h
  obtain ⟨minimise', hm'⟩ : ∃ minimise : ConstrainedMinimiser ℝ, ConstrainedContract minimise := by
    classical
    refine ⟨fun _ f h guess => if hx : ∃ x, Meets h x ∧ ∀ y, Meets h y → f x ≤ f y then hx.choose else guess,
      fun n f h guess hx => ?_⟩
    beta_reduce
    rw [dif_pos hx]
    exact hx.choose_spec
  have hcases : cls = .staticGlobal ∨ cls = .staticSchur := by
    cases h
    · exact Or.inl rfl
    · exact Or.inr rfl
  let store : ProductStore ℝ ℝ := ⟨fun _ => ⟨"", none, []⟩, 0⟩
  have hrun : ∀ (solve : SolverState ℝ → (ℕ → ℝ) → ℕ → ℝ) (solver : SolverState ℝ), ∃ s sim,
      Engine.staticSolve ⟨⟨ops.nodesCount, 2, nodes⟩, cls, .staticDisplacement, ops, bs, solve⟩ (fun _ _ => 0) [] solver
        store = .ok (s, sim) := by
    intro solve solver
    rcases hcases with rfl | rfl <;> exact ⟨_, _, rfl⟩
  obtain ⟨solver, hsolver⟩ : ∃ solver, solverInit inv cls .staticDisplacement ops bs C false 1 = .ok solver := by
    rcases hcases with rfl | rfl <;> exact ⟨_, rfl⟩
  obtain ⟨-, hschur⟩ := init_fields _ _ _ _ _ _ _ _ hsolver
  have hsome : ∀ S : SolverState ℝ, S.schur = solver.schur → ∀ guess, ∃ x, constrainedSolve minimise'
      ⟨Real.sqrt, obstacleLaw (fun _ => 0) ψ, nodes, surfaces⟩ C .staticDisplacement ops bs len S guess = some x := by
    intro S hS guess
    rw [hschur] at hS
    unfold constrainedSolve constrainedImpl
    rw [hS]
    cases h with
    | global hl _ =>
      subst hl
      obtain ⟨v, hv, -⟩ := C77_plane_partial ops.nodesCount C hC0 hCN guess
      simp only [SolverClass.isSchur, Bool.false_eq_true, if_false, hv]
      exact ⟨_, rfl⟩
    | condensed _ _ _ =>
      rw [show SolverClass.staticSchur.isSchur = true from rfl, if_pos rfl,
        show StatementKind.staticDisplacement.dimensionIn ops.dimension = 2 by simp [StatementKind.dimensionIn, hdim]]
      set c := SchurSolver.init inv ops.nodesCount C 2 false solver.system with hc
      obtain ⟨v, hv, -⟩ := C77_plane_partial C C hC0 le_rfl (c.truncateFreeNodes len guess)
      dsimp only
      rw [show c.dimension = 2 from rfl, show c.contactCount = C from rfl, hv]
      exact ⟨_, rfl⟩
  refine ⟨?_, ?_⟩
  · obtain ⟨s, sim, hs⟩ := hrun (optimisedSolve minimise ⟨Real.sqrt, obstacleLaw φ ψ, nodes, surfaces⟩
      .staticDisplacement ops bs len) solver
    exact ⟨_, minimise, hm, ℝ, _, inv, len, 1, solver, _, _, _, s, sim, rfl, rfl, rfl, hinv, h, fun _ _ _ _ => rfl,
      hsolver, hs, rfl⟩
  · obtain ⟨s, sim, hs⟩ := hrun (fun S guess => (constrainedSolve minimise'
      ⟨Real.sqrt, obstacleLaw (fun _ => 0) ψ, nodes, surfaces⟩ C .staticDisplacement ops bs len S guess).getD
        fun _ => 0) solver
    exact ⟨_, minimise', hm', ℝ, _, inv, len, 1, solver, _, _, _, s, sim, rfl, rfl, rfl, hinv, h,
      fun S guess _ hS => by
        obtain ⟨x, hx⟩ := hsome S hS guess
        simp only [hx, Option.getD_some], hsolver, hs, rfl⟩

/-- C114. The runs for temperatures return. -/
theorem C114_temperature_returns (ops : Operators ℝ) (bs bs' : List (CondBoundary ℝ)) {D : ℕ → Prop}
    {g : ℕ → ℝ} (nodes : ℕ → ℕ → ℝ) {surfaces : List (Surface ℝ)} {C len : ℕ}
    {cls : SolverClass} (h : MethodFits ops.nodesCount C 1 len D g surfaces cls) (φ : ℝ → ℝ) :
    (∃ T, ExchangeRun ops bs C D g nodes surfaces φ T) ∧ ∃ T, WallRun ops bs' T := by
  classical
  obtain ⟨⟨inv, hinv⟩, ⟨minimise, hm⟩⟩ := contracts_met
  have hcases : cls = .staticGlobal ∨ cls = .staticSchur := by
    cases h
    · exact Or.inl rfl
    · exact Or.inr rfl
  have hrun : ∀ (bs : List (CondBoundary ℝ)) (cls : SolverClass), StaticClass cls →
      ∀ (solve : SolverState ℝ → (ℕ → ℝ) → ℕ → ℝ) (solver : SolverState ℝ), ∃ s solver' T,
      Engine.poissonSolve ⟨⟨ops.nodesCount, 2, nodes⟩, cls, .staticPoisson, ops, bs, solve⟩ solver = .ok (s, solver') ∧
        s.scalar = .temperature T := by
    intro bs cls hcls solve solver
    rcases hcls with rfl | rfl | rfl <;> exact ⟨_, _, _, rfl, rfl⟩
  have hinit : ∀ (bs : List (CondBoundary ℝ)) (cls : SolverClass), StaticClass cls →
      ∃ solver, solverInit inv cls .staticPoisson ops bs C false 1 = .ok solver := by
    intro bs cls hcls
    rcases hcls with rfl | rfl | rfl <;> exact ⟨_, rfl⟩
  refine ⟨?_, ?_⟩
  · obtain ⟨solver, hsolver⟩ := hinit bs cls (fits_static h)
    obtain ⟨s, solver', T, h1, h2⟩ := hrun bs cls (fits_static h)
      (optimisedSolve minimise ⟨Real.sqrt, obstacleLaw φ (fun _ => 0), nodes, surfaces⟩ .staticPoisson ops bs len) solver
    exact ⟨T, _, inv, minimise, len, 1, solver, solver', s, rfl, rfl, rfl, hinv, hm, h, rfl, hsolver, h1, h2⟩
  · let fsolve : RootFinder ℝ := fun n f guess => if hx : ∃ x, ∀ r < n, f x r = 0 then hx.choose else guess
    have hf : RootContract fsolve := fun n f guess hx => by
      simp only [fsolve, dif_pos hx]
      exact hx.choose_spec
    let m : DirectSetting ℝ := ⟨Real.sqrt, 2, nodes, [], fun _ => 0, fun _ _ => 0, 0⟩
    let solve : SolverState ℝ → (ℕ → ℝ) → ℕ → ℝ := fun S guess => solverSolve (fun _ => fsolve ops.nodesCount
      (fun x => directEquation m.sqrt (fun _ _ _ => 0) 2 m.nodes m.surfaces S.system.lhs S.system.rhs
        ⟨ops.nodesCount, x⟩) guess) ops.nodesCount 1 bs' guess
    obtain ⟨solver, hsolver⟩ := hinit bs' .direct (Or.inl rfl)
    obtain ⟨s, solver', T, h1, h2⟩ := hrun bs' .direct (Or.inl rfl) solve solver
    refine ⟨T, _, inv, fsolve, fun _ _ _ => none, m, fun _ _ _ => 0, C, 1, solver, solver', s, rfl, rfl, rfl, rfl, hf,
      rfl, fun S guess => ?_, hsolver, h1, h2⟩
    simp [directSolve, directImpl, m, solve]

/-- C114, violated: gaps and obstacles that are not below. The method "constrained" knows neither the gap of a law
nor the normals of the surfaces; no contact node gets below zero. Wherever the equilibrium `x₀` on the rigid
obstacle is below zero at a contact node, because there is a gap or because the obstacle is not below, the
displacements for stiffer and stiffer obstacles do not tend to those returned by the method "constrained". -/
theorem C114_constraint_wrong {ops : Operators ℝ} (hdim : ops.dimension = 2) {bs : List (CondBoundary ℝ)}
    {D : ℕ → Prop} [DecidablePred D] {g : ℕ → ℝ} (hv : ValidBoundaries ops.nodesCount bs)
    (hd : DirichletData ops.nodesCount 2 bs D g) (hA : StoresEnergy (2 * ops.nodesCount) ops.elasticity)
    (hdef : DefiniteOn (2 * ops.nodesCount) D ops.elasticity) {nodes : ℕ → ℕ → ℝ} {surfaces : List (Surface ℝ)}
    (hlen : ∀ s ∈ surfaces, 0 < surfaceLength Real.sqrt nodes s.edge) {C : ℕ} (hC0 : 0 < C) (hCN : C ≤ ops.nodesCount)
    (hfree : ∀ node < C, ∀ i < 2, ¬ D (i * ops.nodesCount + node))
    (hn : ∀ s ∈ surfaces, ∀ node ∈ s.edge, node < ops.nodesCount)
    {b : ℝ} {φ : ℝ → ℝ} (hφ : Repels b φ) (hc : Continuous φ) {ψ : List ℝ → ℝ} (hψ : Friction 2 surfaces ψ)
    {w : ℕ → ℝ} (hw : CanLift 2 ops.nodesCount D surfaces w) {x₀ : ℕ → ℝ}
    (h₀ : LeastUnder (2 * ops.nodesCount) D g ⟨ops.elasticity, ops.force 0⟩
      (obstacleCost 2 ops.nodesCount nodes surfaces (fun _ => 0) ψ) (Outside 2 ops.nodesCount surfaces b) x₀)
    {node : ℕ} (hnode : node < C) (hbelow : x₀ (ops.nodesCount + node) < 0) :
    ∃ α₀, 0 < α₀ ∧ ∀ α, α₀ ≤ α → ∀ u u', LawRun ops bs C D g nodes surfaces (fun v => α * φ v) ψ u →
      RigidRun ops bs C D g nodes surfaces ψ u' →
      -x₀ (ops.nodesCount + node) / 2 ≤ u' (ops.nodesCount + node) - u (ops.nodesCount + node) := by
  set δ := -x₀ (ops.nodesCount + node) with hδ
  have hδ0 : 0 < δ := by rw [hδ]; linarith
  obtain ⟨K, hK, hest⟩ := C114_obstacle (nodes := nodes) (by norm_num) hA hdef hn hlen hφ hψ hw h₀
  have hα₀ : 0 < max 1 (4 * K / δ ^ 2) := lt_of_lt_of_le one_pos (le_max_left _ _)
  refine ⟨max 1 (4 * K / δ ^ 2), hα₀, fun α hα u u' ⟨minimise, hm, hu⟩ ⟨minimise', hm', hu'⟩ => ?_⟩
  have hα0 : 0 < α := hα₀.trans_le hα
  obtain ⟨cls, inv, len, s, guess, a1, a2, a3, a4, a5, a6⟩ := staticRun_solved hdim hu
  obtain ⟨cls', inv', len', s', guess', b1, b2, b3, b4, b5, b6⟩ := staticRun_solved hdim hu'
  have hkind : StatementKind.staticDisplacement.dimensionIn ops.dimension = 2 := by
    simp [StatementKind.dimensionIn, hdim]
  have hfound := C114_found (nodes := nodes) (φ := fun v => α * φ v) inv a1 minimise hm (Or.inr rfl) .staticDisplacement
    hkind hv hd hA hdef (continuous_const.mul hc) (fun r => mul_nonneg hα0.le (hφ.nonneg r)) hψ a2 s a3 a4 a5 guess
  rw [← a6] at hfound
  obtain ⟨x, hx, hfound'⟩ := C114_found_constrained (nodes := nodes) (φ := fun _ => (0 : ℝ)) inv' b1 minimise' hm'
    .staticDisplacement hkind hv hd hA hdef continuous_const (fun _ => le_rfl) hψ hC0 hCN hfree b2 s' b3 b4 b5 guess'
  rw [b6, Option.some.injEq] at hx
  subst hx
  obtain ⟨-, -, c3⟩ := hest α hα0 u ⟨hfound.held, fun v hv => hfound.least v hv trivial⟩
  have h1 := hfound'.allowed node hnode
  rw [Nat.one_mul] at h1
  have h2 := c3 (ops.nodesCount + node) (by omega)
  have h3 : K / α ≤ (δ / 2) ^ 2 := by
    rw [div_le_iff₀ hα0]
    have h4 : 4 * K / δ ^ 2 ≤ α := (le_max_right _ _).trans hα
    rw [div_le_iff₀ (by positivity)] at h4
    nlinarith
  have h5 := (abs_le_of_sq_le_sq' (h2.trans h3) (by linarith)).2
  linarith

end runs
end Conmech
