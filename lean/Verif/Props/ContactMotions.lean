import Verif.Props.ContactSteps
import Verif.Props.Rest
/-!
C111: runs of contact problems whose supports touch the contact surfaces. They are the runs of a solver that
meets the hypotheses of C105, C106 and C107, so the theorems on the motion and on coming to rest apply.
-/
namespace Conmech
open Spec

section same
variable {K : Type} [Field K] [DecidableEq K] {V : Type}

theorem steps_same (e : Engine K) (solve' : SolverState K → (ℕ → K) → ℕ → K) (c : Coordinates)
    (P : SolverState K → Prop)
    (hsame : ∀ sim : Simulation K V, P sim.solver → { e with solve := solve' }.step c sim = e.step c sim)
    (hP : ∀ sim sim' : Simulation K V, P sim.solver → e.step c sim = .ok sim' → P sim'.solver) (n : ℕ)
    (sim : Simulation K V) (h : P sim.solver) :
    { e with solve := solve' }.steps c n sim = e.steps c n sim ∧
    ∀ sim', e.steps c n sim = .ok sim' → P sim'.solver := by
  induction n generalizing sim with
  | zero => exact ⟨rfl, fun sim' h' => by cases h'; exact h⟩
  | succ n ih =>
    simp only [Engine.steps, bind, Except.bind, hsame sim h]
    cases h1 : e.step c sim with
    | error err => exact ⟨rfl, fun sim' h' => by cases h'⟩
    | ok sim1 => exact ih sim1 (hP _ _ h h1)

theorem outputs_same (e : Engine K) (solve' : SolverState K → (ℕ → K) → ℕ → K) (c : Coordinates)
    (P : SolverState K → Prop)
    (hsame : ∀ sim : Simulation K V, P sim.solver → { e with solve := solve' }.step c sim = e.step c sim)
    (hP : ∀ sim sim' : Simulation K V, P sim.solver → e.step c sim = .ok sim' → P sim'.solver)
    (products : List ℕ) (l : List ℤ) (sim : Simulation K V) (h : P sim.solver) :
    { e with solve := solve' }.outputs c products l sim = e.outputs c products l sim := by
  induction l generalizing sim with
  | nil => rfl
  | cons n l ih =>
    obtain ⟨h1, h2⟩ := steps_same e solve' c P hsame hP n.toNat (Engine.inject products sim) h
    simp only [Engine.outputs, Engine.run, bind, Except.bind, h1]
    cases h3 : e.steps c n.toNat (Engine.inject products sim) with
    | error err => rfl
    | ok sim1 =>
      simp only
      rw [ih]
      exact h2 sim1 h3

/-- A step depends on `solve` through one call only. -/
theorem step_same (e : Engine K) (solve' : SolverState K → (ℕ → K) → ℕ → K) (sim : Simulation K V)
    (h : ∀ guess, solve' { sim.solver with
        currentTime := sim.solver.currentTime + sim.solver.timeStep } guess =
      e.solve { sim.solver with currentTime := sim.solver.currentTime + sim.solver.timeStep } guess) :
    { e with solve := solve' }.step .velocity sim = e.step .velocity sim := by
  simp only [Engine.step, Engine.findSolution, Engine.item, bind, Except.bind, pure, Except.pure, h]
  rfl

end same

section
variable {V : Type}

/-- The solver object with the condensed matrices and the prescribed values renewed, where needed. -/
noncomputable def mended (inv : ℕ → (ℕ → ℕ → ℝ) → ℕ → ℕ → ℝ) (N C : ℕ) (D : ℕ → Prop) [DecidablePred D]
    (g : ℕ → ℝ) (surfaces : List (Surface ℝ)) (s : SolverState ℝ) : SolverState ℝ :=
  open Classical in
  if Healthy inv N C 2 D g surfaces s then s else
    { s with schur := some (SchurSolver.init inv N C 2 false s.system), vVector := heldAt D g s.vVector }

theorem mended_spec (inv : ℕ → (ℕ → ℕ → ℝ) → ℕ → ℕ → ℝ) (N C : ℕ) (D : ℕ → Prop) [DecidablePred D]
    (g : ℕ → ℝ) (surfaces : List (Surface ℝ)) (s : SolverState ℝ) :
    Healthy inv N C 2 D g surfaces (mended inv N C D g surfaces s) ∧
    (mended inv N C D g surfaces s).system = s.system ∧
    (mended inv N C D g surfaces s).timeStep = s.timeStep ∧
    (Healthy inv N C 2 D g surfaces s → mended inv N C D g surfaces s = s) := by
  unfold mended
  split_ifs with h
  · exact ⟨h, rfl, rfl, fun _ => rfl⟩
  · exact ⟨⟨rfl, fun σ _ node _ i _ hD => by simp [heldAt, hD]⟩, rfl, rfl, fun h' => absurd h' h⟩

/-- C111. The condensed method on a body whose supports, which do not move, touch the contact surfaces; the
contact law is convex and depends on the velocity only. What `solve` returns is what a solver returns that
balances the forces in every call. -/
theorem C111_balanced {c : ProblemClass} (e : Engine ℝ) (hr : Registered c e.cls e.kind)
    (hne : e.cls ≠ .direct) (hst : e.kind ≠ .staticDisplacement ∧ e.kind ≠ .staticPoisson)
    (hk : e.kind ≠ .quasistaticRelaxation) (hdim : e.ops.dimension = 2) (hkind : e.kind.dimensionIn 2 = 2)
    (hcls : e.cls.isSchur = true)
    (inv : ℕ → (ℕ → ℕ → ℝ) → ℕ → ℕ → ℝ) (hinv : InvContract inv)
    (minimise : ℕ → ((ℕ → ℝ) → ℝ) → (ℕ → ℝ) → ℕ → ℝ) (hm : MinimiseContract minimise)
    (m : ContactSetting ℝ) (hsqrt : m.sqrt = Real.sqrt) (len : ℕ)
    (hsolve : e.solve = optimisedSolve minimise m e.kind e.ops e.boundaries len)
    (j : ℝ → ℝ → ℝ → ℝ) (hj : ∀ a b c b' c', j a b c = j a b' c')
    (hconv : ∀ b c, Convex1 fun x => j x b c) (hcond : m.conditions = frictionless j)
    (D : ℕ → Prop) [DecidablePred D] (hv : ValidBoundaries e.ops.nodesCount e.boundaries)
    (hd : DirichletData e.ops.nodesCount 2 e.boundaries D fun _ => 0) (C : ℕ) (hC : C ≤ e.ops.nodesCount)
    (hap : SupportsApart e.ops.nodesCount C 2 D m.surfaces)
    (hlhs : ∀ dt, 0 < dt → ∀ var lhs, var.timeStep = some dt → updateLhs e.ops var e.kind = .ok lhs →
      (∀ r < 2 * e.ops.nodesCount, ∀ s < 2 * e.ops.nodesCount, lhs r s = lhs s r) ∧
      ∀ x : ℕ → ℝ, Still (2 * e.ops.nodesCount) D x → (∃ r < 2 * e.ops.nodesCount, x r ≠ 0) →
        0 < quad (2 * e.ops.nodesCount) lhs x) :
    ∃ solve' : SolverState ℝ → (ℕ → ℝ) → ℕ → ℝ,
      (∀ dt, 0 < dt → ContactSolve { e with solve := solve' } (2 * e.ops.nodesCount) D dt (fun y =>
        contactCostFunctional Real.sqrt (frictionless j)
          (contactOf e.ops.nodesCount m.nodes m.surfaces 0 (fun _ => 0) fun _ => 0)
          ⟨2 * e.ops.nodesCount, y⟩)) ∧
      ∀ (dt : ℝ) (a : Engine.Arguments ℝ) (solver : SolverState ℝ) (store : ProductStore ℝ V),
        solverInit inv e.cls e.kind e.ops e.boundaries C false dt = .ok solver →
        HeldOnContact e.ops.nodesCount 2 D (fun _ => 0) m.surfaces (State.flatten e.grid a.initialVelocity) →
        e.timeDependentSolve a solver store = { e with solve := solve' }.timeDependentSolve a solver store := by
  have hfun : ∀ S guess, e.solve S guess = solverSolve (optimisedImpl minimise m e.kind e.ops len S)
      e.ops.nodesCount 2 e.boundaries guess := fun S guess => by
    rw [hsolve]; unfold optimisedSolve; rw [hdim, hkind]
  let mend := mended inv e.ops.nodesCount C D (fun _ => (0 : ℝ)) m.surfaces
  refine ⟨fun S guess => e.solve (mend S) guess, ?_, ?_⟩
  · intro dt hdt0 S guess var hdt hu
    obtain ⟨m1, m2, m3, -⟩ := mended_spec inv e.ops.nodesCount C D (fun _ => (0 : ℝ)) m.surfaces S
    obtain ⟨lhs, rhs, h2, -, h3⟩ := update_eliminated _ _ _ _ _ hu
    change S.system = applyDirichlet e.ops.nodesCount (e.kind.dimensionIn e.ops.dimension) e.boundaries _ at h3
    rw [hdim, hkind] at h3
    obtain ⟨hA, hpos⟩ := hlhs dt hdt0 var lhs hdt h2
    have key := C111_solve inv hinv minimise hm m hsqrt e.kind e.ops hdim hkind e.boundaries D _ hv hd C hC hap
      (mend S) (fun σ _ sn st => by rw [hcond]; exact C48_density_convex j _ _ _ _ _ (hconv sn _)) m1
      ⟨lhs, rhs⟩ (m2.trans h3) hA hpos len guess
    rw [contactArguments_eq m e.kind e.ops hdim hkind, hsqrt, hcond, ← hsolve] at key
    have hc := held_contact e.ops.nodesCount e.boundaries D
      (contactOf e.ops.nodesCount m.nodes m.surfaces 0 (fun _ => 0) fun _ => 0) (by simp [contactOf]) hv hd lhs rhs hA j hj hconv
      (fun s hs node hnode => by rcases hap s hs node hnode with h | h <;> omega)
      (contactOf e.ops.nodesCount m.nodes m.surfaces (mend S).timeStep (mend S).uVector (mend S).vVector)
      rfl rfl rfl _ key
    rw [h3]
    exact hc
  · intro dt a solver store hi ha
    have hh : ∀ sim : Simulation ℝ V, e.timeDependentStart a solver store = .ok sim →
        Healthy inv e.ops.nodesCount C 2 D (fun _ => 0) m.surfaces sim.solver ∧
        ∃ s, e.iterate s = .ok sim.solver := fun sim hs => by
      obtain ⟨k1, -, -, -, k5⟩ := C111_start e hk hdim hkind hcls inv C dt D (fun _ => 0) m.surfaces a solver hi
        store sim hs ha
      exact ⟨k5, k1.iterated⟩
    rw [Engine.timeDependentSolve_eq, Engine.timeDependentSolve_eq]
    change _ = (e.timeDependentStart a solver store).bind _
    cases hs : e.timeDependentStart a solver store with
    | error err => rfl
    | ok sim =>
      refine (outputs_same e _ .velocity (fun s => Healthy inv e.ops.nodesCount C 2 D (fun _ => 0) m.surfaces s ∧
        ∃ x, e.iterate x = .ok s) (fun sim hs => step_same e _ sim fun guess => ?_) ?_ _ _ sim (hh sim hs)).symm
      · have := (mended_spec inv e.ops.nodesCount C D (fun _ => (0 : ℝ)) m.surfaces { sim.solver with
          currentTime := sim.solver.currentTime + sim.solver.timeStep }).2.2.2 ⟨hs.1.condensed, hs.1.held⟩
        change e.solve (mended _ _ _ _ _ _ _) guess = _
        rw [this]
      · rintro sim sim' ⟨h1, x, h2⟩ h3
        refine ⟨(C111_healthy e hk D _ hv hd inv C m.surfaces _ hfun _ _ h3
          ⟨_, rfl, iterate_current e hr hne hst x _ h2⟩ h1).1, ?_⟩
        obtain ⟨_, _, _, h5⟩ := (e.step_ok_iff _ _ _).1 h3
        exact ⟨_, h5⟩

/-- C111 and C105. A body on a triangular mesh, held in place where it is supported, in contact with an
obstacle of the slope law; the contact surfaces may end at the supports. There is exactly one motion from the
initial state. The states returned by `solve` with the condensed method follow it, and the error is at most
a multiple of the elapsed time and of the time step. -/
theorem C111_dynamic {c : ProblemClass} (e : Engine ℝ) (hk : e.kind = .dynamicVelocity)
    (hr : Registered c e.cls e.kind) (hcls : e.cls.isSchur = true) (hdim : e.ops.dimension = 2)
    {elements : List (List ℕ)} {nodes : ℕ → ℕ → ℝ} (hve : ValidElements 2 e.ops.nodesCount elements)
    (hnd : Nondegenerate2 elements nodes) (hall : ∀ p < e.ops.nodesCount, ∃ t ∈ elements, p ∈ t)
    (density mu lam theta zeta : ℝ) (hdensity : 0 < density) (hmu : 0 ≤ mu) (hlam : 0 ≤ lam)
    (htheta : 0 ≤ theta) (hzeta : 0 ≤ zeta)
    (hacc : e.ops.acceleration =
      Plane.acceleration e.ops.nodesCount (basicMatrices2 elements nodes).U density)
    (hel : e.ops.elasticity =
      Plane.constitutive e.ops.nodesCount (basicMatrices2 elements nodes).W mu lam)
    (hvis : e.ops.viscosity =
      Plane.constitutive e.ops.nodesCount (basicMatrices2 elements nodes).W theta zeta)
    (D : ℕ → Prop) [DecidablePred D] (hv : ValidBoundaries e.ops.nodesCount e.boundaries)
    (hd : DirichletData e.ops.nodesCount 2 e.boundaries D fun _ => 0)
    (inv : ℕ → (ℕ → ℕ → ℝ) → ℕ → ℕ → ℝ) (hinv : InvContract inv)
    (minimise : ℕ → ((ℕ → ℝ) → ℝ) → (ℕ → ℝ) → ℕ → ℝ) (hm : MinimiseContract minimise)
    (slope : ℝ) (hslope : 0 ≤ slope) (surfaces : List (Surface ℝ)) (he : ∀ s ∈ surfaces, s.edge ≠ [])
    (C : ℕ) (hC : C ≤ e.ops.nodesCount) (hap : SupportsApart e.ops.nodesCount C 2 D surfaces) (len : ℕ)
    (hsolve : e.solve = optimisedSolve minimise
      ⟨Real.sqrt, frictionless (slopePotential slope), nodes, surfaces⟩ e.kind e.ops e.boundaries len)
    (T l : ℝ) (hT : 0 ≤ T) (hl : 0 ≤ l)
    (hf : ∀ s ∈ Set.Icc 0 T, ∀ t ∈ Set.Icc 0 T, ∀ r < 2 * e.ops.nodesCount,
      |e.ops.force s r - e.ops.force t r| ≤ l * |s - t|)
    (u₀ v₀ : ℕ → ℕ → ℝ) (hv₀ : Still (2 * e.ops.nodesCount) D (State.flatten e.grid v₀)) :
    let J := fun y => contactCostFunctional Real.sqrt (frictionless (slopePotential slope))
      (contactOf e.ops.nodesCount nodes surfaces 0 (fun _ => 0) fun _ => 0) ⟨2 * e.ops.nodesCount, y⟩
    let MotionOf := fun u v acc : ℝ → ℕ → ℝ => Motion (2 * e.ops.nodesCount) D e.ops.acceleration
      e.ops.viscosity e.ops.elasticity J e.ops.force 0 T u v acc ∧
      ∀ r < 2 * e.ops.nodesCount,
        u 0 r = State.flatten e.grid u₀ r ∧ v 0 r = State.flatten e.grid v₀ r
    ∃ (u v acc : ℝ → ℕ → ℝ) (B : ℝ), MotionOf u v acc ∧
      (∀ u' v' acc', MotionOf u' v' acc' → ∀ t ∈ Set.Icc 0 T, ∀ r < 2 * e.ops.nodesCount,
        u' t r = u t r ∧ v' t r = v t r) ∧
      ∀ (dt : ℝ) (a : Engine.Arguments ℝ) (solver : SolverState ℝ) (store : ProductStore ℝ V)
        (rs : List (State ℝ)) (sim : Simulation ℝ V), 0 < dt →
        solverInit inv e.cls e.kind e.ops e.boundaries C false dt = .ok solver →
        a.initialDisplacement = u₀ → a.initialVelocity = v₀ →
        e.timeDependentSolve a solver store = .ok (rs, sim) →
        ∀ s ∈ rs, s.time ≤ T →
          energyDistance (2 * e.ops.nodesCount) e.ops.acceleration e.ops.elasticity
            (State.flatten e.grid s.displacement) (State.flatten e.grid s.velocity)
            (u s.time) (v s.time) ≤ s.time * dt * B := by
  intro J MotionOf
  obtain ⟨o1, o2, o3, -, -⟩ := C71_operators2 hve hnd density mu lam theta zeta 0 hdensity.le hmu hlam
    htheta hzeta
  rw [← hacc] at o1
  rw [← hel] at o2
  rw [← hvis] at o3
  have hne : e.cls ≠ .direct := by intro h; rw [h] at hcls; exact absurd hcls (by decide)
  have hdef : DefiniteOn (2 * e.ops.nodesCount) D e.ops.acceleration := by
    rw [hacc]; exact (C74_mass2 hve hnd density hdensity hall D).1
  have hAs : ∀ r < 2 * e.ops.nodesCount, ∀ s < 2 * e.ops.nodesCount,
      e.ops.viscosity r s = e.ops.viscosity s r := by
    rw [hvis]; exact C26_symmetric hve hnd theta zeta
  obtain ⟨solve', hcs, hsame⟩ := C111_balanced (V := V) e hr hne (by rw [hk]; exact ⟨nofun, nofun⟩)
    (by rw [hk]; nofun) hdim (by rw [hk]; rfl) hcls inv hinv minimise hm _ rfl len hsolve
    (slopePotential slope) (fun _ _ _ _ _ => rfl) (fun b c => C47_convex slope b c hslope) rfl D hv hd C hC hap
    (by
      rw [hk]
      exact fun dt hdt var lhs hvar h => dynamic_lhs e.ops var lhs dt hdt hvar h o1 hdef o3 hAs o2)
  have hn : ∀ s ∈ surfaces, ∀ node ∈ s.edge, node < e.ops.nodesCount := fun s hs node hnode => by
    rcases hap s hs node hnode with h | h <;> omega
  obtain ⟨k, hk0, hg⟩ := C105_slope slope hslope
    (contactOf e.ops.nodesCount nodes surfaces 0 (fun _ => 0) fun _ => 0) (by simp [contactOf])
    e.ops.nodesCount he hn
  obtain ⟨u, v, acc, B, hmo, h0, hB⟩ := C105_converges (V := V) { e with solve := solve' } hk hr hne hdim D hv hd
    o1 hdef o3 o2 J _ k hk0 hg T l hT hl hf hcs u₀ v₀ hv₀
  refine ⟨u, v, acc, B, ⟨hmo, h0⟩, fun u' v' acc' h' t ht r hr => ?_,
    fun dt a solver store rs sim hdt hi ha1 ha2 hrun s hmem hsT => ?_⟩
  · exact C105_unique o1 o3 o2 hdef h'.1 hmo (fun r hr => ((h'.2 r hr).1).trans (h0 r hr).1.symm)
      (fun r hr => ((h'.2 r hr).2).trans (h0 r hr).2.symm) t ht r hr
  · rw [hsame dt a solver store hi (fun σ hσ node hnode i hi2 hD => by
      rw [ha2]
      refine hv₀ _ ?_ hD
      have := hn σ hσ node hnode
      interval_cases i <;> omega)] at hrun
    obtain ⟨S, -, hsol⟩ := ok_of_bind _ _ _ hi
    have hdt' : solver.timeStep = dt ∧ solver.currentTime = 0 := by cases hsol; exact ⟨rfl, rfl⟩
    have := hB a solver store rs sim ha1 ha2 (by rw [hdt'.1]; exact hdt) hdt'.2 hrun s hmem hsT
    rw [hdt'.1] at this
    exact this

/-- C111 and C106. The same for quasistatic problems with viscosity. -/
theorem C111_quasistatic {c : ProblemClass} (e : Engine ℝ) (hk : e.kind = .quasistaticVelocity)
    (hr : Registered c e.cls e.kind) (hcls : e.cls.isSchur = true) (hdim : e.ops.dimension = 2)
    {elements : List (List ℕ)} {nodes : ℕ → ℕ → ℝ} (hve : ValidElements 2 e.ops.nodesCount elements)
    (hnd : Nondegenerate2 elements nodes)
    (mu lam theta zeta : ℝ) (hmu : 0 ≤ mu) (hlam : 0 ≤ lam) (htheta : 0 < theta) (hzeta : 0 ≤ zeta)
    (hel : e.ops.elasticity =
      Plane.constitutive e.ops.nodesCount (basicMatrices2 elements nodes).W mu lam)
    (hvis : e.ops.viscosity =
      Plane.constitutive e.ops.nodesCount (basicMatrices2 elements nodes).W theta zeta)
    (D : ℕ → Prop) [DecidablePred D] (hv : ValidBoundaries e.ops.nodesCount e.boundaries)
    (hd : DirichletData e.ops.nodesCount 2 e.boundaries D fun _ => 0)
    (hh : ∀ p < e.ops.nodesCount,
      Held elements (fun q => q < e.ops.nodesCount ∧ D q ∧ D (e.ops.nodesCount + q)) p)
    (inv : ℕ → (ℕ → ℕ → ℝ) → ℕ → ℕ → ℝ) (hinv : InvContract inv)
    (minimise : ℕ → ((ℕ → ℝ) → ℝ) → (ℕ → ℝ) → ℕ → ℝ) (hm : MinimiseContract minimise)
    (slope : ℝ) (hslope : 0 ≤ slope) (surfaces : List (Surface ℝ))
    (C : ℕ) (hC : C ≤ e.ops.nodesCount) (hap : SupportsApart e.ops.nodesCount C 2 D surfaces) (len : ℕ)
    (hsolve : e.solve = optimisedSolve minimise
      ⟨Real.sqrt, frictionless (slopePotential slope), nodes, surfaces⟩ e.kind e.ops e.boundaries len)
    (T l : ℝ) (hT : 0 ≤ T) (hl : 0 ≤ l)
    (hf : ∀ s ∈ Set.Icc 0 T, ∀ t ∈ Set.Icc 0 T, ∀ r < 2 * e.ops.nodesCount,
      |e.ops.force s r - e.ops.force t r| ≤ l * |s - t|)
    (u₀ : ℕ → ℕ → ℝ) :
    let J := fun y => contactCostFunctional Real.sqrt (frictionless (slopePotential slope))
      (contactOf e.ops.nodesCount nodes surfaces 0 (fun _ => 0) fun _ => 0) ⟨2 * e.ops.nodesCount, y⟩
    let CreepOf := fun u v : ℝ → ℕ → ℝ => Creep (2 * e.ops.nodesCount) D
      e.ops.viscosity e.ops.elasticity J e.ops.force 0 T u v ∧
      ∀ r < 2 * e.ops.nodesCount, u 0 r = State.flatten e.grid u₀ r
    ∃ (u v : ℝ → ℕ → ℝ) (B : ℝ), CreepOf u v ∧
      (∀ u' v', CreepOf u' v' → ∀ t ∈ Set.Icc 0 T, ∀ r < 2 * e.ops.nodesCount,
        u' t r = u t r ∧ v' t r = v t r) ∧
      ∀ (dt : ℝ) (a : Engine.Arguments ℝ) (solver : SolverState ℝ) (store : ProductStore ℝ V)
        (rs : List (State ℝ)) (sim : Simulation ℝ V), 0 < dt →
        solverInit inv e.cls e.kind e.ops e.boundaries C false dt = .ok solver →
        a.initialDisplacement = u₀ →
        HeldOnContact e.ops.nodesCount 2 D (fun _ => 0) surfaces (State.flatten e.grid a.initialVelocity) →
        e.timeDependentSolve a solver store = .ok (rs, sim) →
        ∀ s ∈ rs, s.time ≤ T →
          strainDistance (2 * e.ops.nodesCount) e.ops.elasticity
            (State.flatten e.grid s.displacement) (u s.time) ≤ dt * B := by
  intro J CreepOf
  obtain ⟨-, o2, -, -, -⟩ := C71_operators2 hve hnd 0 mu lam theta zeta 0 le_rfl hmu hlam
    htheta.le hzeta
  obtain ⟨-, o3, -, -, -⟩ := C71_operators2 hve hnd 0 theta zeta mu lam 0 le_rfl htheta.le hzeta hmu hlam
  rw [← hel] at o2
  rw [← hvis] at o3
  have hne : e.cls ≠ .direct := by intro h; rw [h] at hcls; exact absurd hcls (by decide)
  have hdef : DefiniteOn (2 * e.ops.nodesCount) D e.ops.viscosity := by
    rw [hvis]; exact C74_elastic2 hve hnd theta zeta htheta hzeta D hh
  obtain ⟨solve', hcs, hsame⟩ := C111_balanced (V := V) e hr hne (by rw [hk]; exact ⟨nofun, nofun⟩)
    (by rw [hk]; nofun) hdim (by rw [hk]; rfl) hcls inv hinv minimise hm _ rfl len hsolve
    (slopePotential slope) (fun _ _ _ _ _ => rfl) (fun b c => C47_convex slope b c hslope) rfl D hv hd C hC hap
    (by
      rw [hk]
      exact fun dt hdt var lhs hvar h => quasistatic_lhs e.ops var lhs dt hdt hvar h o3 hdef o2)
  have hn : ∀ s ∈ surfaces, ∀ node ∈ s.edge, node < e.ops.nodesCount := fun s hs node hnode => by
    rcases hap s hs node hnode with h | h <;> omega
  have hJ : ConvexVec J :=
    C48_contact_convex Real.sqrt isSqrt_real _ _ (fun s _ sn st =>
      C48_density_convex _ _ _ _ _ _ (C47_convex slope sn _ hslope)) _
  have hJn : DependsOn (2 * e.ops.nodesCount) J :=
    contactCost_dependsOn (slopePotential slope)
      (contactOf e.ops.nodesCount nodes surfaces 0 (fun _ => 0) fun _ => 0) e.ops.nodesCount
      (by simp [contactOf]) hn
  obtain ⟨u, v, B, hmo, h0, hB⟩ := C106_converges (V := V) { e with solve := solve' } hk hr hne hdim D hv hd
    o3 hdef o2 J hJ hJn T l hT hl hf hcs u₀
  refine ⟨u, v, B, ⟨hmo, h0⟩, fun u' v' h' t ht r hr => ?_,
    fun dt a solver store rs sim hdt hi ha1 ha2 hrun s hmem hsT => ?_⟩
  · exact C106_unique ⟨o3.nonneg⟩ o2 hdef h'.1 hmo (fun r hr => (h'.2 r hr).trans (h0 r hr).symm) t ht r hr
  · rw [hsame dt a solver store hi ha2] at hrun
    obtain ⟨S, -, hsol⟩ := ok_of_bind _ _ _ hi
    have hdt' : solver.timeStep = dt ∧ solver.currentTime = 0 := by cases hsol; exact ⟨rfl, rfl⟩
    have := hB a solver store rs sim ha1 (by rw [hdt'.1]; exact hdt) hdt'.2 hrun s hmem hsT
    rw [hdt'.1] at this
    exact this

/-! ### A square held by its upper corners, with contact below and at the right side -/

/-- Inverses and minimisers as required exist. -/
theorem contracts_met : (∃ inv : ℕ → (ℕ → ℕ → ℝ) → ℕ → ℕ → ℝ, InvContract inv) ∧
    ∃ minimise : ℕ → ((ℕ → ℝ) → ℝ) → (ℕ → ℝ) → ℕ → ℝ, MinimiseContract minimise := by
  classical
  refine ⟨⟨fun n A => if h : ∃ B, IsInverse n A B then h.choose else A, fun n A h => ?_⟩,
    ⟨fun _ f guess => if h : ∃ x, ∀ y, f x ≤ f y then h.choose else guess, fun n f guess h => ?_⟩⟩
  · beta_reduce
    rw [dif_pos h]
    exact h.choose_spec
  · beta_reduce
    rw [dif_pos h]
    exact h.choose_spec

/-- The lower side and the right side, which ends at a support. -/
noncomputable def squareSurfaces : List (Surface ℝ) :=
  [⟨[0, 1], fun i => if i = 1 then -1 else 0⟩, ⟨[1, 2], fun i => if i = 0 then 1 else 0⟩]

theorem squareSurfaces_apart : SupportsApart 4 2 2 (fun r => r < 2 * 4 ∧ 2 ≤ r % 4) squareSurfaces := by
  intro s hs node hn
  have h : node = 0 ∨ node = 1 ∨ node = 2 := by
    simp only [squareSurfaces, List.mem_cons, List.not_mem_nil, or_false] at hs
    rcases hs with rfl | rfl <;> (simp at hn; omega)
  rcases h with h | h | h
  · left; subst h; exact ⟨by norm_num, fun i hi => by interval_cases i <;> norm_num⟩
  · left; subst h; exact ⟨by norm_num, fun i hi => by interval_cases i <;> norm_num⟩
  · right; subst h; exact ⟨by norm_num, by norm_num, fun i hi => by interval_cases i <;> norm_num⟩

/-- All hypotheses of `C111_dynamic` are met by the square, for a node of a contact surface that is held. -/
example (store : ProductStore ℝ V) : ∃ (inv : ℕ → (ℕ → ℕ → ℝ) → ℕ → ℕ → ℝ) (e : Engine ℝ),
    e.kind = .dynamicVelocity ∧ e.cls = .dynamicSchur ∧ e.ops = heavySquareOps ∧
    e.boundaries = heldSquareBoundaries ∧
    ¬ ContactApart 4 (fun r => r < 2 * 4 ∧ 2 ≤ r % 4)
      (contactOf 4 heldSquareNodes squareSurfaces 0 (fun _ => 0) fun _ => 0) ∧
    ∃ (u v acc : ℝ → ℕ → ℝ) (B : ℝ),
      Motion 8 (fun r => r < 2 * 4 ∧ 2 ≤ r % 4) heavySquareOps.acceleration heavySquareOps.viscosity
        heavySquareOps.elasticity (fun y => contactCostFunctional Real.sqrt (frictionless (slopePotential 10))
          (contactOf 4 heldSquareNodes squareSurfaces 0 (fun _ => 0) fun _ => 0) ⟨8, y⟩)
        heavySquareOps.force 0 1 u v acc ∧
      ∀ (dt : ℝ) (a : Engine.Arguments ℝ), 0 < dt → a.initialDisplacement = (fun _ _ => 0) →
        a.initialVelocity = (fun _ _ => 0) → a.products = [] →
        ∃ (solver : SolverState ℝ) (rs : List (State ℝ)) (sim : Simulation ℝ V),
          solverInit inv e.cls e.kind e.ops e.boundaries 2 false dt = .ok solver ∧
          e.timeDependentSolve a solver store = .ok (rs, sim) ∧
          ∀ s ∈ rs, s.time ≤ 1 → energyDistance 8 heavySquareOps.acceleration heavySquareOps.elasticity
            (State.flatten e.grid s.displacement) (State.flatten e.grid s.velocity)
            (u s.time) (v s.time) ≤ s.time * dt * B := by
  obtain ⟨⟨inv, hinv⟩, ⟨minimise, hm⟩⟩ := contracts_met
  have hreg : Registered .DynamicDisplacementProblem .dynamicSchur .dynamicVelocity :=
    ⟨⟨.dynamic, by decide +kernel, by decide +kernel⟩, Or.inl (by decide +kernel)⟩
  have hall : ∀ p < heavySquareOps.nodesCount, ∃ t ∈ heldSquareElements, p ∈ t := by
    change ∀ p < 4, ∃ t ∈ heldSquareElements, p ∈ t
    unfold heldSquareElements
    decide
  let e : Engine ℝ :=
    { grid := ⟨4, 2, heldSquareNodes⟩, cls := .dynamicSchur, kind := .dynamicVelocity
      ops := heavySquareOps, boundaries := heldSquareBoundaries
      solve := optimisedSolve minimise
        ⟨Real.sqrt, frictionless (slopePotential 10), heldSquareNodes, squareSurfaces⟩ .dynamicVelocity
        heavySquareOps heldSquareBoundaries 8 }
  obtain ⟨u, v, acc, B, hmo, -, hB⟩ := C111_dynamic (V := V) e rfl hreg rfl rfl heldSquare_mesh.1
    heldSquare_mesh.2 hall 1 4 5 2 3 (by norm_num) (by norm_num) (by norm_num) (by norm_num) (by norm_num)
    rfl rfl rfl (fun r => r < 2 * 4 ∧ 2 ≤ r % 4) heldSquare_boundaries.1 heldSquare_boundaries.2 inv hinv
    minimise hm 10 (by norm_num) squareSurfaces (by simp [squareSurfaces]) 2 (by change 2 ≤ 4; norm_num) squareSurfaces_apart 8
    rfl 1 0 (by norm_num) le_rfl
    (fun s _ t _ r _ => by change |heavySquareOps.force s r - heavySquareOps.force t r| ≤ _; simp [heavySquareOps])
    (fun _ _ => 0) (fun _ _ => 0) (fun _ _ _ => rfl)
  refine ⟨inv, e, rfl, rfl, rfl, rfl, fun h => ?_, u, v, acc, B, hmo.1, fun dt a hdt h1 h2 h3 => ?_⟩
  · exact h ⟨[1, 2], fun i => if i = 0 then 1 else 0⟩ (by simp [contactOf, squareSurfaces]) 2 (by simp) 0
      (by simp [contactOf]) (by norm_num)
  · obtain ⟨solver, hi⟩ : ∃ solver, solverInit inv e.cls e.kind e.ops e.boundaries 2 false dt = .ok solver :=
      ⟨_, rfl⟩
    obtain ⟨rs, sim, h⟩ := C105_runs e hreg SolverClass.noConfusion (fun _ => ⟨_, rfl⟩) a h3 solver store
    exact ⟨solver, rs, sim, hi, h, hB dt a solver store rs sim hdt hi h1 h2 h⟩

/-- The hypotheses of `C111_quasistatic` are met by the square. -/
example : ∃ (inv : ℕ → (ℕ → ℕ → ℝ) → ℕ → ℕ → ℝ) (e : Engine ℝ) (solver : SolverState ℝ),
    InvContract inv ∧ Registered .QuasistaticDisplacementProblem e.cls e.kind ∧ e.cls.isSchur = true ∧
    e.kind = .quasistaticVelocity ∧ e.ops = heldSquareOps ∧
    (∀ p < 4, Held heldSquareElements (fun q => q < 4 ∧ (q < 2 * 4 ∧ 2 ≤ q % 4) ∧
      (4 + q < 2 * 4 ∧ 2 ≤ (4 + q) % 4)) p) ∧
    SupportsApart 4 2 2 (fun r => r < 2 * 4 ∧ 2 ≤ r % 4) squareSurfaces ∧
    solverInit inv e.cls e.kind e.ops e.boundaries 2 false (1 / 100) = .ok solver := by
  obtain ⟨⟨inv, hinv⟩, ⟨minimise, -⟩⟩ := contracts_met
  have hreg : Registered .QuasistaticDisplacementProblem .quasistaticSchur .quasistaticVelocity :=
    ⟨⟨.quasistatic, by decide +kernel, by decide +kernel⟩, Or.inl (by decide +kernel)⟩
  exact ⟨inv, { grid := ⟨4, 2, heldSquareNodes⟩, cls := .quasistaticSchur, kind := .quasistaticVelocity
                ops := heldSquareOps, boundaries := heldSquareBoundaries
                solve := optimisedSolve minimise
                  ⟨Real.sqrt, frictionless (slopePotential 10), heldSquareNodes, squareSurfaces⟩
                  .quasistaticVelocity heldSquareOps heldSquareBoundaries 8 }, _, hinv,
    hreg, rfl, rfl, rfl, heldSquare_held, squareSurfaces_apart, rfl⟩

end
end Conmech
