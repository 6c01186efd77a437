import Verif.Props.SpaceMotions
/-!
C71, C73, C74 and C105 for scalar problems on tetrahedral meshes. One component is prescribed and solved
for, so that nothing is lost in space.
-/
namespace Conmech
open Spec

section
variable {K : Type} [Field K] [LinearOrder K] [IsStrictOrderedRing K] {V : Type}
variable {N : ℕ} {elements : List (List ℕ)} {nodes : ℕ → ℕ → K}

/-- The first block of the mass matrix of a tetrahedral mesh. -/
theorem scalar_mass3 (hv : ValidElements 3 N elements) (hn : Nondegenerate3 elements nodes)
    (density : K) (hdensity : 0 < density) (hall : ∀ p < N, ∃ e ∈ elements, p ∈ e) (D : ℕ → Prop) :
    StoresEnergy N (Space.acceleration N (basicMatrices3 elements nodes).U density) ∧
    DefiniteOn N D (Space.acceleration N (basicMatrices3 elements nodes).U density) := by
  obtain ⟨hs, hp, hdef⟩ := C23_mass3 hv hn
  have hblock : ∀ r < N, ∀ s < N, Space.acceleration N (basicMatrices3 elements nodes).U density r s =
      density * (basicMatrices3 elements nodes).U r s := by
    intro r hr s hs'
    simp only [Space.acceleration, block, Nat.div_eq_of_lt hr, Nat.div_eq_of_lt hs',
      Nat.mod_eq_of_lt hr, Nat.mod_eq_of_lt hs']
  constructor
  · refine storesEnergy_of_form (fun r hr s hs' => ?_) fun x => ?_
    · rw [hblock r hr s hs', hblock s hs' r hr, hs r hr s hs']
    · rw [form_congr x x hblock, form_mul]
      exact mul_nonneg hdensity.le (hp _)
  · intro x _ h0 r hr
    rw [quad_eq_form, form_congr x x hblock, form_mul] at h0
    exact hdef hall x ((mul_eq_zero.1 h0).resolve_left hdensity.ne') r hr

/-- C74: scalar problems on a tetrahedral mesh. Every system of wave problems is uniquely solvable; those of
Poisson problems are if every node is joined to a constrained one. -/
theorem C74_scalar3 (hv : ValidElements 3 N elements) (hn : Nondegenerate3 elements nodes)
    (hall : ∀ p < N, ∃ e ∈ elements, p ∈ e) (density c : K) (hdensity : 0 < density) (hc : c ≠ 0)
    (ops : Operators K) (hN : ops.nodesCount = N)
    (hacc : ops.acceleration = Space.acceleration N (basicMatrices3 elements nodes).U density)
    (hpo : ops.poisson = poissonMatrix 3 (basicMatrices3 elements nodes).W c)
    (bs : List (CondBoundary K)) (D : ℕ → Prop) [DecidablePred D] (g : ℕ → K)
    (hb : ValidBoundaries N bs) (hd : DirichletData N 1 bs D g)
    (var : Variables K) (dt : K) (hdt : 0 < dt) (hvar : var.timeStep = some dt) (S : System K) :
    (StatementKind.wave.update ops bs var = .ok S → UniquelySolvable N S) ∧
    ((∀ p < N, Joined 4 elements (fun q => q < N ∧ D q) p) →
      StatementKind.staticPoisson.update ops bs var = .ok S → UniquelySolvable N S) := by
  subst hN
  obtain ⟨o4, hm⟩ := scalar_mass3 hv hn density hdensity hall D
  have o5 := (C71_operators3 hv hn density 0 c hdensity.le le_rfl).2.2.1
  rw [← hacc] at o4 hm
  rw [← hpo] at o5
  have h1 : 1 * ops.nodesCount = ops.nodesCount := Nat.one_mul _
  refine ⟨fun h => ?_, fun hj h => ?_⟩
  · rw [← h1]
    refine update_solvable _ ops bs var S 1 rfl D g hb hd (fun lhs hl => ?_) h
    refine lhs_definite ops var D dt hdt hvar .wave _ ?_ lhs hl
    change Dissipates _ _ ∧ Dissipates _ _ ∧ _
    rw [h1]
    exact ⟨⟨o4.nonneg⟩, ⟨o5.nonneg⟩, Or.inl hm⟩
  · rw [← h1]
    refine update_solvable _ ops bs var S 1 rfl D g hb hd (fun lhs hl => ?_) h
    refine lhs_definite ops var D dt hdt hvar .staticPoisson _ ?_ lhs hl
    change DefiniteOn _ D ops.poisson
    rw [h1, hpo]
    exact C74_poisson3 hv hn c hc D hj

/-- A wave problem without contact on a tetrahedral mesh, solved exactly. -/
structure SpaceWave (elements : List (List ℕ)) (nodes : ℕ → ℕ → K) (density propagation : K)
    (e : Engine K) (D : ℕ → Prop) (dt : K) : Prop where
  kind : e.kind = .wave
  registered : ∃ c, Registered c e.cls e.kind
  indirect : e.cls ≠ .direct
  valid : ValidElements 3 e.ops.nodesCount elements
  proper : Nondegenerate3 elements nodes
  covered : ∀ p < e.ops.nodesCount, ∃ t ∈ elements, p ∈ t
  acceleration : e.ops.acceleration =
    Space.acceleration e.ops.nodesCount (basicMatrices3 elements nodes).U density
  poisson : e.ops.poisson = poissonMatrix 3 (basicMatrices3 elements nodes).W propagation
  boundaries : ValidBoundaries e.ops.nodesCount e.boundaries
  data : DirichletData e.ops.nodesCount 1 e.boundaries D fun _ => 0
  exact_ : ExactSolve e e.ops.nodesCount dt

variable {density propagation : K} {e : Engine K} {D : ℕ → Prop} [DecidablePred D]

/-- C71, waves on tetrahedral meshes: the energies of the states returned never grow. -/
theorem C71_wave_space (a : Engine.Arguments K) (resume : Option (State K)) (solver : SolverState K)
    (hb : SpaceWave elements nodes density propagation e D solver.timeStep) (hdensity : 0 < density)
    (f : ℕ → K) (hf : ∀ t, e.ops.force t = f) (hdt : 0 < solver.timeStep)
    (store : ProductStore K V) (rs : List (State K)) (sim : Simulation K V)
    (h : e.waveSolve a resume solver store = .ok (rs, sim)) :
    List.Pairwise (fun x y => y ≤ x)
      (mechanicalEnergy e.ops.nodesCount e.ops.acceleration e.ops.poisson f
          (State.flatten e.grid (resume.elim a.initialDisplacement fun s => s.displacement))
          (State.flatten e.grid (resume.elim a.initialVelocity fun s => s.velocity)) ::
        rs.map fun s => mechanicalEnergy e.ops.nodesCount e.ops.acceleration e.ops.poisson f
          (State.flatten e.grid s.displacement) (State.flatten e.grid s.velocity)) := by
  obtain ⟨c, hr⟩ := hb.registered
  refine C71_wave e hb.kind hr hb.indirect D hb.boundaries hb.data f hf ?_ ?_ a resume solver hdt
    (exact_passive e _ D (by rw [hb.kind]; rfl) hb.boundaries hb.data _ hb.exact_) store rs sim h
  · rw [hb.acceleration]
    exact (scalar_mass3 hb.valid hb.proper density hdensity hb.covered D).1
  · rw [hb.poisson]
    exact (C71_operators3 hb.valid hb.proper density 0 propagation hdensity.le le_rfl).2.2.1

/-- C72, waves on tetrahedral meshes without supports: the total momentum is the initial one plus the elapsed
time times the total load. -/
theorem C72_wave_space (a : Engine.Arguments K) (resume : Option (State K)) (solver : SolverState K)
    (hb : SpaceWave elements nodes density propagation e (fun _ => False) solver.timeStep)
    (f : ℕ → K) (hf : ∀ t, e.ops.force t = f) (hdt : solver.timeStep ≠ 0)
    (store : ProductStore K V) (rs : List (State K)) (sim : Simulation K V)
    (h : e.waveSolve a resume solver store = .ok (rs, sim)) (s : State K) (hmem : s ∈ rs) :
    momentum e.ops.nodesCount e.ops.acceleration (fun _ => 1) (State.flatten e.grid s.velocity) =
      momentum e.ops.nodesCount e.ops.acceleration (fun _ => 1)
        (State.flatten e.grid (resume.elim a.initialVelocity fun s => s.velocity)) +
      (s.time - resume.elim 0 fun s => s.time) * ∑ r ∈ Finset.range e.ops.nodesCount, f r := by
  obtain ⟨c, hr⟩ := hb.registered
  have hpc := C25_poisson3 hb.valid hb.proper propagation
  have := C72_wave e hb.kind hr hb.indirect _ hb.boundaries hb.data (fun _ => 1)
    (fun _ _ h => h.elim) ((unresisted_of_act (by rw [hb.poisson]; exact hpc.1)).2 (fun s hs => by
      rw [hb.poisson]
      exact hpc.2.2.2.1 1 s hs)) f hf a resume solver hdt hb.exact_ store rs sim h s hmem
  simpa only [one_mul] using this

/-- C73, waves on tetrahedral meshes: what starts at rest in equilibrium stays there. -/
theorem C73_wave_space (a : Engine.Arguments K) (resume : Option (State K)) (solver : SolverState K)
    (hb : SpaceWave elements nodes density propagation e D solver.timeStep) (hdensity : 0 < density)
    (f : ℕ → K) (hf : ∀ t, e.ops.force t = f) (hdt : 0 < solver.timeStep)
    (store : ProductStore K V)
    (hrest : AtRest e.ops.nodesCount D e.ops.poisson f
      (State.flatten e.grid (resume.elim a.initialDisplacement fun s => s.displacement))
      (State.flatten e.grid (resume.elim a.initialVelocity fun s => s.velocity)))
    (rs : List (State K)) (sim : Simulation K V)
    (h : e.waveSolve a resume solver store = .ok (rs, sim)) (s : State K) (hmem : s ∈ rs) :
    ∀ r < e.ops.nodesCount,
      State.flatten e.grid s.displacement r =
        State.flatten e.grid (resume.elim a.initialDisplacement fun s => s.displacement) r ∧
      State.flatten e.grid s.velocity r = 0 := by
  obtain ⟨c, hr⟩ := hb.registered
  have hm := scalar_mass3 hb.valid hb.proper density hdensity hb.covered D
  refine C73_wave e hb.kind hr hb.indirect D hb.boundaries hb.data f hf ?_ ?_ ?_ a resume solver hdt
    (exact_passive e _ D (by rw [hb.kind]; rfl) hb.boundaries hb.data _ hb.exact_) store hrest rs sim h s hmem
  · rw [hb.acceleration]; exact hm.1
  · rw [hb.poisson]
    exact (C71_operators3 hb.valid hb.proper density 0 propagation hdensity.le le_rfl).2.2.1
  · rw [hb.acceleration]; exact hm.2

end

section
variable {V : Type}

/-- C105, waves on tetrahedral meshes: there is exactly one motion from the initial state, and the states
returned by `solve` are at most a multiple of the elapsed time and of the time step away from it. -/
theorem C105_wave_space {elements : List (List ℕ)} {nodes : ℕ → ℕ → ℝ} {density propagation : ℝ}
    {e : Engine ℝ} {D : ℕ → Prop} [DecidablePred D]
    (hb : ∀ dt, 0 < dt → SpaceWave elements nodes density propagation e D dt) (hdensity : 0 < density)
    (T l : ℝ) (hT : 0 ≤ T) (hl : 0 ≤ l)
    (hf : ∀ s ∈ Set.Icc 0 T, ∀ t ∈ Set.Icc 0 T, ∀ r < e.ops.nodesCount,
      |e.ops.force s r - e.ops.force t r| ≤ l * |s - t|)
    (u₀ v₀ : ℕ → ℕ → ℝ) (hv₀ : Still e.ops.nodesCount D (State.flatten e.grid v₀)) :
    let MotionOf := fun u v acc : ℝ → ℕ → ℝ => Motion e.ops.nodesCount D e.ops.acceleration
      (fun _ _ => 0) e.ops.poisson (fun _ => 0) e.ops.force 0 T u v acc ∧
      ∀ r < e.ops.nodesCount, u 0 r = State.flatten e.grid u₀ r ∧ v 0 r = State.flatten e.grid v₀ r
    ∃ (u v acc : ℝ → ℕ → ℝ) (C : ℝ), MotionOf u v acc ∧
      (∀ u' v' acc', MotionOf u' v' acc' → ∀ t ∈ Set.Icc 0 T, ∀ r < e.ops.nodesCount,
        u' t r = u t r ∧ v' t r = v t r) ∧
      ∀ (a : Engine.Arguments ℝ) (solver : SolverState ℝ) (store : ProductStore ℝ V)
        (rs : List (State ℝ)) (sim : Simulation ℝ V),
        a.initialDisplacement = u₀ → a.initialVelocity = v₀ → 0 < solver.timeStep →
        e.waveSolve a none solver store = .ok (rs, sim) →
        ∀ s ∈ rs, s.time ≤ T →
          energyDistance e.ops.nodesCount e.ops.acceleration e.ops.poisson
            (State.flatten e.grid s.displacement) (State.flatten e.grid s.velocity)
            (u s.time) (v s.time) ≤ s.time * solver.timeStep * C := by
  intro MotionOf
  have h1 := hb 1 one_pos
  obtain ⟨c, hr⟩ := h1.registered
  have hm := scalar_mass3 h1.valid h1.proper density hdensity h1.covered D
  rw [← h1.acceleration] at hm
  have o2 : StoresEnergy e.ops.nodesCount e.ops.poisson := by
    rw [h1.poisson]
    exact (C71_operators3 h1.valid h1.proper density 0 propagation hdensity.le le_rfl).2.2.1
  obtain ⟨u, v, acc, C, hmo, h0, hC⟩ := C105_converges_wave (V := V) e h1.kind hr h1.indirect D
    h1.boundaries h1.data hm.1 hm.2 o2 (fun _ => 0) (fun _ _ => 0) 0 le_rfl
    ⟨fun v y => by simp, fun v w r _ => by simp⟩ T l hT hl hf
    (fun dt hdt => exact_contactSolve e _ D (by rw [h1.kind]; rfl) h1.boundaries h1.data dt (hb dt hdt).exact_)
    u₀ v₀ hv₀
  refine ⟨u, v, acc, C, ⟨hmo, h0⟩, fun u' v' acc' h' t ht r hr => ?_, hC⟩
  exact C105_unique hm.1 ⟨fun x => by simp [quad]⟩ o2 hm.2 h'.1 hmo
    (fun r hr => ((h'.2 r hr).1).trans (h0 r hr).1.symm)
    (fun r hr => ((h'.2 r hr).2).trans (h0 r hr).2.symm) t ht r hr

open Classical in
/-- A wave in the column, its base clamped, solved exactly. -/
noncomputable def columnWave : Engine ℝ where
  grid := { nodesCount := 9, dimension := 1, nodes := columnNodes 2 }
  cls := .dynamicGlobal
  kind := .wave
  ops := { hangingOps with
    nodesCount := 9
    dimension := 3
    acceleration := Space.acceleration 9 (basicMatrices3 columnMesh (columnNodes (2 : ℝ))).U 5
    poisson := poissonMatrix 3 (basicMatrices3 columnMesh (columnNodes (2 : ℝ))).W 2
    force := fun _ r => r }
  boundaries := columnSupport
  solve := fun s _ => if h : ∃ x, Solves 9 s.system x then h.choose else fun _ => 0

/-- The hypotheses of `C71_wave_space`, `C73_wave_space` and `C105_wave_space` are met by the column. -/
example (dt : ℝ) (hdt : 0 < dt) : SpaceWave columnMesh (columnNodes 2) 5 2 columnWave
    (fun r => r < 1 * 9 ∧ r % 9 < 3) dt := by
  have hn := column_nondegenerate (2 : ℝ) (by norm_num)
  have hall : ∀ p < 9, ∃ t ∈ columnMesh, p ∈ t := by unfold columnMesh; decide
  refine ⟨rfl, ⟨.WaveProblem, ?_⟩, SolverClass.noConfusion, column_valid, hn, hall, rfl, rfl,
    (columnSupport_data 1).1, (columnSupport_data 1).2, ?_⟩
  · exact ⟨⟨.dynamic, by decide +kernel, by decide +kernel⟩, Or.inl (by decide +kernel)⟩
  · intro S guess var hvar h
    obtain ⟨x, hx, -⟩ := (C74_scalar3 column_valid hn hall 5 2 (by norm_num) (by norm_num)
      columnWave.ops rfl rfl rfl _ _ _ (columnSupport_data 1).1 (columnSupport_data 1).2 var dt hdt hvar
      S.system).1 h
    have hex : ∃ x, Solves 9 S.system x := ⟨x, hx⟩
    have : columnWave.solve S guess = hex.choose := dif_pos hex
    rw [this]
    exact hex.choose_spec

/-- The hypotheses of `C72_wave_space` are met by the column without support. -/
example (dt : ℝ) (hdt : 0 < dt) : SpaceWave columnMesh (columnNodes 2) 5 2 { columnWave with boundaries := [] }
    (fun _ => False) dt := by
  have hn := column_nondegenerate (2 : ℝ) (by norm_num)
  have hall : ∀ p < 9, ∃ t ∈ columnMesh, p ∈ t := by unfold columnMesh; decide
  have hd : DirichletData (K := ℝ) 9 1 [] (fun _ => False) fun _ => 0 :=
    ⟨fun x => ⟨False.elim, fun ⟨v, b, hb, _⟩ => by simp at hb⟩, fun x v ⟨b, hb, _⟩ => by simp at hb⟩
  have hv : ValidBoundaries (K := ℝ) 9 [] := fun b hb => by simp at hb
  refine ⟨rfl, ⟨.WaveProblem, ?_⟩, SolverClass.noConfusion, column_valid, hn, hall, rfl, rfl, hv, hd, ?_⟩
  · exact ⟨⟨.dynamic, by decide +kernel, by decide +kernel⟩, Or.inl (by decide +kernel)⟩
  · intro S guess var hvar h
    obtain ⟨x, hx, -⟩ := (C74_scalar3 column_valid hn hall 5 2 (by norm_num) (by norm_num)
      columnWave.ops rfl rfl rfl _ _ _ hv hd var dt hdt hvar S.system).1 h
    have hex : ∃ x, Solves 9 S.system x := ⟨x, hx⟩
    have : columnWave.solve S guess = hex.choose := dif_pos hex
    change Solves 9 S.system (columnWave.solve S guess)
    rw [this]
    exact hex.choose_spec

end
end Conmech
