import Verif.Props.CoupledMethods
/-!
C118: thermoelastic and piezoelectric bodies, simulated with the solvers as they are.
-/
namespace Conmech
open Spec

/-- The matrices of the heat equation are symmetric and positive. -/
theorem heat_lhs {n : ℕ} {D : ℕ → Prop} (ops : Operators ℝ) (var : Variables ℝ) (lhs : ℕ → ℕ → ℝ)
    (dt : ℝ) (hdt : 0 < dt) (hvar : var.timeStep = some dt)
    (h : updateLhs ops var .temperature = .ok lhs) (hM : StoresEnergy n ops.acceleration)
    (hdef : DefiniteOn n D ops.acceleration) (hA : StoresEnergy n ops.thermalConductivity) :
    (∀ r < n, ∀ s < n, lhs r s = lhs s r) ∧
    ∀ x : ℕ → ℝ, Still n D x → (∃ r < n, x r ≠ 0) → 0 < quad n lhs x := by
  obtain rfl : (fun r s => 1 / dt * ops.acceleration r s + ops.thermalConductivity r s) = lhs := by
    simpa [updateLhs, hvar, required, bind, Except.bind, pure, Except.pure] using h
  refine ⟨fun r hr s hs => ?_, fun x hx hne => ?_⟩
  · beta_reduce
    rw [hM.symm r hr s hs, hA.symm r hr s hs]
  · have e1 : quad n (fun r s => 1 / dt * ops.acceleration r s + ops.thermalConductivity r s) x =
        1 / dt * quad n ops.acceleration x + quad n ops.thermalConductivity x := by
      simp only [quad_eq_act, act, Finset.mul_sum, ← Finset.sum_add_distrib]
      exact Finset.sum_congr rfl fun r _ => Finset.sum_congr rfl fun s _ => by ring
    have h3 : 0 < quad n ops.acceleration x := by
      refine lt_of_le_of_ne (hM.nonneg x) fun h0 => ?_
      obtain ⟨r, hr, hne⟩ := hne
      exact hne (hdef x hx h0.symm r hr)
    have h4 := hA.nonneg x
    have h5 : 0 < 1 / dt * quad n ops.acceleration x := by positivity
    rw [e1]
    linarith

/-- The matrix of the potential is symmetric and positive. -/
theorem charge_lhs {n : ℕ} {D : ℕ → Prop} (ops : Operators ℝ) (var : Variables ℝ) (lhs : ℕ → ℕ → ℝ)
    (h : updateLhs ops var .piezoelectric = .ok lhs) (hM : StoresEnergy n ops.permittivity)
    (hdef : DefiniteOn n D ops.permittivity) :
    (∀ r < n, ∀ s < n, lhs r s = lhs s r) ∧
    ∀ x : ℕ → ℝ, Still n D x → (∃ r < n, x r ≠ 0) → 0 < quad n lhs x := by
  obtain rfl : ops.permittivity = lhs := by simpa [updateLhs] using h
  refine ⟨hM.symm, fun x hx hne => lt_of_le_of_ne (hM.nonneg x) fun h0 => ?_⟩
  obtain ⟨r, hr, hne⟩ := hne
  exact hne (hdef x hx h0.symm r hr)

/-- C118 and C116: thermoelastic bodies on triangular meshes, in contact with an obstacle of the slope law and
insulated, simulated with the condensed or the global method. There is exactly one motion from the initial
state. The states returned by `solve` follow it, and the error goes to zero with the time step, however strong
the coupling is. -/
theorem C118_thermoelastic {V : Type} (e : CoupledEngine ℝ) (D D' : ℕ → Prop) [DecidablePred D]
    [DecidablePred D'] (he : Thermoelastic e D D') {elements : List (List ℕ)} {nodes : ℕ → ℕ → ℝ}
    (hve : ValidElements 2 e.first.ops.nodesCount elements) (hnd : Nondegenerate2 elements nodes)
    (hall : ∀ p < e.first.ops.nodesCount, ∃ t ∈ elements, p ∈ t)
    (density mu lam theta zeta : ℝ) (hdensity : 0 < density) (hmu : 0 ≤ mu) (hlam : 0 ≤ lam)
    (htheta : 0 ≤ theta) (hzeta : 0 ≤ zeta)
    (hacc : e.first.ops.acceleration =
      Plane.acceleration e.first.ops.nodesCount (basicMatrices2 elements nodes).U density)
    (hel : e.first.ops.elasticity =
      Plane.constitutive e.first.ops.nodesCount (basicMatrices2 elements nodes).W mu lam)
    (hvis : e.first.ops.viscosity =
      Plane.constitutive e.first.ops.nodesCount (basicMatrices2 elements nodes).W theta zeta)
    (κ : ℕ → ℕ → ℝ) (hsym : κ 0 1 = κ 1 0)
    (hκ : ∀ z : ℕ → ℝ, 0 ≤ ∑ k ∈ Finset.range 2, ∑ l ∈ Finset.range 2, κ k l * (z k * z l))
    (hcond : e.first.ops.thermalConductivity = Plane.conductivity (basicMatrices2 elements nodes).W κ)
    (inv : ℕ → (ℕ → ℕ → ℝ) → ℕ → ℕ → ℝ) (hinv : InvContract inv)
    (slope : ℝ) (hslope : 0 ≤ slope) (surfaces : List (Surface ℝ)) (hed : ∀ s ∈ surfaces, s.edge ≠ [])
    (C : ℕ) (hC : C ≤ e.first.ops.nodesCount) (hap : SupportsApart e.first.ops.nodesCount C 2 D surfaces)
    (m' : ContactSetting ℝ) (hin : Inert m'.conditions)
    (hopt : CoupledOptimising e ⟨Real.sqrt, frictionless (slopePotential slope), nodes, surfaces⟩ m' D)
    (fuel : ℕ) (T l : ℝ) (hT : 0 ≤ T) (hl : 0 ≤ l)
    (hf : ∀ s ∈ Set.Icc 0 T, ∀ t ∈ Set.Icc 0 T, ∀ r < 2 * e.first.ops.nodesCount,
      |e.first.ops.force s r - e.first.ops.force t r| ≤ l * |s - t|)
    (u₀ v₀ : ℕ → ℕ → ℝ) (θ₀ : ℕ → ℝ)
    (hv₀ : Still (2 * e.first.ops.nodesCount) D (State.flatten e.first.grid v₀))
    (hθ₀ : Still e.first.ops.nodesCount D' θ₀) :
    let b := thermalBody e D D' (fun y => contactCostFunctional Real.sqrt
      (frictionless (slopePotential slope))
      (contactOf e.first.ops.nodesCount nodes surfaces 0 (fun _ => 0) fun _ => 0)
      ⟨2 * e.first.ops.nodesCount, y⟩) fun _ => 0
    let MotionOf := fun u v acc θ η : ℝ → ℕ → ℝ => b.Motion e.first.ops.force T u v acc θ η ∧
      (∀ r < 2 * e.first.ops.nodesCount,
        u 0 r = State.flatten e.first.grid u₀ r ∧ v 0 r = State.flatten e.first.grid v₀ r) ∧
      ∀ p < e.first.ops.nodesCount, θ 0 p = θ₀ p
    ∃ (u v acc θ η : ℝ → ℕ → ℝ) (B : ℝ), MotionOf u v acc θ η ∧
      (∀ u' v' acc' θ' η', MotionOf u' v' acc' θ' η' → ∀ t ∈ Set.Icc 0 T,
        (∀ r < 2 * e.first.ops.nodesCount, u' t r = u t r ∧ v' t r = v t r) ∧
        ∀ p < e.first.ops.nodesCount, θ' t p = θ t p) ∧
      ∀ (dt : ℝ) (a : Engine.Arguments ℝ) (first second : SolverState ℝ) (store : ProductStore ℝ V)
        (rs : List (State ℝ)) (r : CoupledEngine.Run ℝ V), 0 < dt →
        solverInit inv e.first.cls e.first.kind e.first.ops e.first.boundaries C false dt = .ok first →
        solverInit inv e.second.cls e.second.kind e.second.ops e.second.boundaries C false dt = .ok second →
        a.initialDisplacement = u₀ → a.initialVelocity = v₀ →
        e.solve fuel a θ₀ first second store = .ok (rs, r) →
        ∀ s ∈ rs, s.time ≤ T → ∃ ϑ, s.scalar = .temperature ϑ ∧
          b.distance (State.flatten e.first.grid s.displacement) (State.flatten e.first.grid s.velocity) ϑ
            (u s.time) (v s.time) (θ s.time) ≤ s.time * dt * B := by
  intro b MotionOf
  obtain ⟨o1, o2, o3, o4, -⟩ := C71_operators2 hve hnd density mu lam theta zeta 0 hdensity.le hmu hlam
    htheta hzeta
  rw [← hacc] at o1 o4
  rw [← hel] at o2
  rw [← hvis] at o3
  have hdef : DefiniteOn (2 * e.first.ops.nodesCount) D e.first.ops.acceleration := by
    rw [hacc]; exact (C74_mass2 hve hnd density hdensity hall D).1
  have hdef' : DefiniteOn e.first.ops.nodesCount D' e.first.ops.acceleration := by
    rw [hacc]; exact (C74_mass2 hve hnd density hdensity hall D').2
  have hAs : ∀ r < 2 * e.first.ops.nodesCount, ∀ s < 2 * e.first.ops.nodesCount,
      e.first.ops.viscosity r s = e.first.ops.viscosity s r := by
    rw [hvis]; exact C26_symmetric hve hnd theta zeta
  have hcon : StoresEnergy e.first.ops.nodesCount e.first.ops.thermalConductivity := by
    obtain ⟨-, c2, c3, -⟩ := C28_conduction2 hve hnd κ
    rw [hcond]
    refine ⟨c2 fun k hk l hl => ?_, fun x => by rw [quad_eq_form]; exact c3 hκ x⟩
    interval_cases k <;> interval_cases l <;> simp [hsym]
  have hn : ∀ s ∈ surfaces, ∀ node ∈ s.edge, node < e.first.ops.nodesCount := fun s hs node hnode => by
    rcases hap s hs node hnode with h | h <;> omega
  obtain ⟨k, hk0, hg⟩ := C105_slope slope hslope
    (contactOf e.first.ops.nodesCount nodes surfaces 0 (fun _ => 0) fun _ => 0) (by simp [contactOf])
    e.first.ops.nodesCount hed hn
  have hb : b.Sound := ⟨o1, hdef, o3, o2, o4, hdef', ⟨hcon.nonneg⟩, ⟨_, k, hk0, hg⟩,
    ⟨_, 0, le_rfl, smooth_nothing _⟩⟩
  obtain ⟨s₁, s₂, hcs, hcs', hsame⟩ := C118_balanced (V := V) e (by rw [he.first]; nofun)
    (by rw [he.second]; nofun) he.dimension he.ops (by rw [he.first]; rfl) (by rw [he.second]; rfl) inv hinv
    ⟨Real.sqrt, frictionless (slopePotential slope), nodes, surfaces⟩ m' rfl (slopePotential slope)
    (fun _ _ _ _ _ => rfl) (fun b c => C47_convex slope b c hslope) rfl hin D D' (fun _ => 0) he.boundaries
    he.supports he.boundaries' he.kept hopt C hC hap
    (by
      rw [he.first]
      exact fun dt hdt var lhs hvar h => dynamic_lhs e.first.ops var lhs dt hdt hvar h o1 hdef o3 hAs o2)
    (by
      rw [he.second]
      exact fun dt hdt var lhs hvar h => heat_lhs e.first.ops var lhs dt hdt hvar h o4 hdef' hcon)
  have he' : Thermoelastic (e.withSolve s₁ s₂) D D' := ⟨he.first, he.second, he.state, he.ops, he.dimension,
    he.boundaries, he.supports, he.boundaries', he.kept⟩
  have hex : ∀ dt, 0 < dt → ContactSolve (e.withSolve s₁ s₂).second e.first.ops.nodesCount D' dt
      fun _ => 0 := by
    intro dt hdt
    have := C105_exact (e.withSolve s₁ s₂).second D' 1 (by rw [he'.second]; rfl)
      (by rw [he'.ops]; exact he.boundaries') (by rw [he'.ops]; exact he.kept) dt (by
        rw [Nat.one_mul, he'.ops]
        have := hcs' dt hdt
        unfold ExactSolve at this
        rw [he'.ops] at this
        exact this)
    rw [Nat.one_mul, he'.ops] at this
    exact this
  obtain ⟨u, v, acc, θ, η, B, hm, h0, h0', hB⟩ := C116_converges (V := V) (e.withSolve s₁ s₂) D D' he' b.contact
    (fun _ => 0) hb fuel T l hT hl hf hcs hex u₀ v₀ θ₀ hv₀ hθ₀
  refine ⟨u, v, acc, θ, η, B, ⟨hm, h0, h0'⟩, fun u' v' acc' θ' η' hm' => ?_,
    fun dt a first second store rs r hdt hi hi' ha1 ha2 hrun s hmem hsT => ?_⟩
  · exact C116_unique hb hm'.1 hm (fun r hr => ⟨(hm'.2.1 r hr).1.trans (h0 r hr).1.symm,
      (hm'.2.1 r hr).2.trans (h0 r hr).2.symm⟩) fun p hp => (hm'.2.2 p hp).trans (h0' p hp).symm
  · rw [hsame fuel dt a θ₀ first second store hi hi' (fun σ hσ node hnode i hi2 hD => by
      rw [ha2]
      refine hv₀ _ ?_ hD
      have := hn σ hσ node hnode
      interval_cases i <;> omega)] at hrun
    obtain ⟨-, -, t1, t2⟩ := current_init inv e.first C _ rfl dt first hi
    obtain ⟨-, -, t3, -⟩ := current_init inv e.second C _ rfl dt second hi'
    have := hB a first second store rs r ha1 ha2 t2 (by rw [t1]; exact hdt) (by rw [t1, t3]) hrun s hmem hsT
    rw [t1] at this
    exact this

/-- C118 and C117: piezoelectric bodies on triangular meshes, in contact with an obstacle of the slope law and
without surface charges, simulated with the condensed or the global method. There is exactly one motion from
the initial displacement, and the states returned by `solve` follow it. -/
theorem C118_piezoelectric {V : Type} (e : CoupledEngine ℝ) (D D' : ℕ → Prop) [DecidablePred D]
    [DecidablePred D'] (g : ℕ → ℝ) (he : Piezoelectric e D D' g) {elements : List (List ℕ)}
    {nodes : ℕ → ℕ → ℝ}
    (hve : ValidElements 2 e.first.ops.nodesCount elements) (hnd : Nondegenerate2 elements nodes)
    (mu lam theta zeta : ℝ) (hmu : 0 ≤ mu) (hlam : 0 ≤ lam) (htheta : 0 < theta) (hzeta : 0 ≤ zeta)
    (hel : e.first.ops.elasticity =
      Plane.constitutive e.first.ops.nodesCount (basicMatrices2 elements nodes).W mu lam)
    (hvis : e.first.ops.viscosity =
      Plane.constitutive e.first.ops.nodesCount (basicMatrices2 elements nodes).W theta zeta)
    (hh : ∀ p < e.first.ops.nodesCount,
      Held elements (fun q => q < e.first.ops.nodesCount ∧ D q ∧ D (e.first.ops.nodesCount + q)) p)
    (κ : ℕ → ℕ → ℝ) (hsym : κ 0 1 = κ 1 0) (p : ℝ) (hp : 0 < p)
    (hκ : ∀ z : ℕ → ℝ, p * (z 0 ^ 2 + z 1 ^ 2) ≤
      ∑ k ∈ Finset.range 2, ∑ l ∈ Finset.range 2, κ k l * (z k * z l))
    (hper : e.first.ops.permittivity = Plane.conductivity (basicMatrices2 elements nodes).W κ)
    (hj : ∀ p < e.first.ops.nodesCount, Joined 3 elements (fun q => q < e.first.ops.nodesCount ∧ D' q) p)
    (inv : ℕ → (ℕ → ℕ → ℝ) → ℕ → ℕ → ℝ) (hinv : InvContract inv)
    (slope : ℝ) (hslope : 0 ≤ slope) (surfaces : List (Surface ℝ))
    (C : ℕ) (hC : C ≤ e.first.ops.nodesCount) (hap : SupportsApart e.first.ops.nodesCount C 2 D surfaces)
    (m' : ContactSetting ℝ) (hin : Inert m'.conditions)
    (hopt : CoupledOptimising e ⟨Real.sqrt, frictionless (slopePotential slope), nodes, surfaces⟩ m' D)
    (fuel : ℕ) (T l : ℝ) (hT : 0 ≤ T) (hl : 0 ≤ l)
    (hf : ∀ s ∈ Set.Icc 0 T, ∀ t ∈ Set.Icc 0 T, ∀ r < 2 * e.first.ops.nodesCount,
      |e.first.ops.force s r - e.first.ops.force t r| ≤ l * |s - t|)
    (u₀ : ℕ → ℕ → ℝ) (φ₀ : ℕ → ℝ) :
    let b := piezoBody e D D' g fun y => contactCostFunctional Real.sqrt
      (frictionless (slopePotential slope))
      (contactOf e.first.ops.nodesCount nodes surfaces 0 (fun _ => 0) fun _ => 0)
      ⟨2 * e.first.ops.nodesCount, y⟩
    let MotionOf := fun u v φ : ℝ → ℕ → ℝ => b.Motion e.first.ops.force T u v φ ∧
      ∀ r < 2 * e.first.ops.nodesCount, u 0 r = State.flatten e.first.grid u₀ r
    ∃ (u v φ : ℝ → ℕ → ℝ) (B : ℝ), MotionOf u v φ ∧
      (∀ u' v' φ', MotionOf u' v' φ' → ∀ t ∈ Set.Icc 0 T,
        (∀ r < 2 * e.first.ops.nodesCount, u' t r = u t r ∧ v' t r = v t r) ∧
          ∀ p < e.first.ops.nodesCount, φ' t p = φ t p) ∧
      ∀ (dt : ℝ) (a : Engine.Arguments ℝ) (first second : SolverState ℝ) (store : ProductStore ℝ V)
        (rs : List (State ℝ)) (r : CoupledEngine.Run ℝ V), 0 < dt →
        solverInit inv e.first.cls e.first.kind e.first.ops e.first.boundaries C false dt = .ok first →
        solverInit inv e.second.cls e.second.kind e.second.ops e.second.boundaries C false dt = .ok second →
        a.initialDisplacement = u₀ →
        HeldOnContact e.first.ops.nodesCount 2 D (fun _ => 0) surfaces
          (State.flatten e.first.grid a.initialVelocity) →
        e.solve fuel a φ₀ first second store = .ok (rs, r) →
        ∀ s ∈ rs, s.time ≤ T →
          Real.sqrt (quad (2 * e.first.ops.nodesCount) e.first.ops.elasticity
            fun i => State.flatten e.first.grid s.displacement i - u s.time i) ≤ dt * B ∧
          (0 < s.time → ∃ ϕ, s.scalar = .potential ϕ ∧
            b.distance (State.flatten e.first.grid s.displacement) ϕ (u s.time) (φ s.time) ≤ dt * B) := by
  intro b MotionOf
  obtain ⟨-, o2, -, -, -⟩ := C71_operators2 hve hnd 0 mu lam theta zeta 0 le_rfl hmu hlam
    htheta.le hzeta
  obtain ⟨-, o3, -, -, -⟩ := C71_operators2 hve hnd 0 theta zeta mu lam 0 le_rfl htheta.le hzeta hmu hlam
  rw [← hel] at o2
  rw [← hvis] at o3
  have hdef : DefiniteOn (2 * e.first.ops.nodesCount) D e.first.ops.viscosity := by
    rw [hvis]; exact C74_elastic2 hve hnd theta zeta htheta hzeta D hh
  obtain ⟨-, c2, c3, -⟩ := C63_permittivity hve hnd κ
  have o4 : StoresEnergy e.first.ops.nodesCount e.first.ops.permittivity := by
    rw [hper]
    refine ⟨c2 fun k hk l hl => ?_, fun x => ?_⟩
    · interval_cases k <;> interval_cases l <;> simp [hsym]
    · rw [quad_eq_form]
      exact c3 (fun z => le_trans (by positivity) (hκ z)) x
  have hdef' : DefiniteOn e.first.ops.nodesCount D' e.first.ops.permittivity := by
    rw [hper]; exact permittivity_definite hve hnd κ p hp hκ D' hj
  have hn : ∀ s ∈ surfaces, ∀ node ∈ s.edge, node < e.first.ops.nodesCount := fun s hs node hnode => by
    rcases hap s hs node hnode with h | h <;> omega
  have hJ : ConvexVec b.contact :=
    C48_contact_convex Real.sqrt isSqrt_real _ _ (fun s _ sn st =>
      C48_density_convex _ _ _ _ _ _ (C47_convex slope sn _ hslope)) _
  have hJn : DependsOn (2 * e.first.ops.nodesCount) b.contact :=
    contactCost_dependsOn (slopePotential slope)
      (contactOf e.first.ops.nodesCount nodes surfaces 0 (fun _ => 0) fun _ => 0) e.first.ops.nodesCount
      (by simp [contactOf]) hn
  have hb : b.Sound := ⟨o3, hdef, o2, o4, hdef', hJ, hJn⟩
  obtain ⟨s₁, s₂, hcs, hcs', hsame⟩ := C118_balanced (V := V) e (by rw [he.first]; nofun)
    (by rw [he.second]; nofun) he.dimension he.ops (by rw [he.first]; rfl) (by rw [he.second]; rfl) inv hinv
    ⟨Real.sqrt, frictionless (slopePotential slope), nodes, surfaces⟩ m' rfl (slopePotential slope)
    (fun _ _ _ _ _ => rfl) (fun b c => C47_convex slope b c hslope) rfl hin D D' g he.boundaries
    he.supports he.boundaries' he.electrodes hopt C hC hap
    (by
      rw [he.first]
      exact fun dt hdt var lhs hvar h => quasistatic_lhs e.first.ops var lhs dt hdt hvar h o3 hdef o2)
    (by
      rw [he.second]
      exact fun dt _ var lhs _ h => charge_lhs e.first.ops var lhs h o4 hdef')
  have he' : Piezoelectric (e.withSolve s₁ s₂) D D' g := ⟨he.first, he.second, he.state, he.ops, he.dimension,
    he.boundaries, he.supports, he.boundaries', he.electrodes⟩
  obtain ⟨u, v, φ, B, hm, h0, hB⟩ := C117_converges (V := V) (e.withSolve s₁ s₂) D D' g he' b.contact hb fuel
    T l hT hl hf hcs hcs' u₀ φ₀
  refine ⟨u, v, φ, B, ⟨hm, h0⟩, fun u' v' φ' hm' => ?_,
    fun dt a first second store rs r hdt hi hi' ha1 ha2 hrun s hmem hsT => ?_⟩
  · exact C117_unique hb hm'.1 hm fun r hr => (hm'.2 r hr).trans (h0 r hr).symm
  · rw [hsame fuel dt a φ₀ first second store hi hi' ha2] at hrun
    obtain ⟨-, -, t1, t2⟩ := current_init inv e.first C _ rfl dt first hi
    obtain ⟨-, -, t3, -⟩ := current_init inv e.second C _ rfl dt second hi'
    have := hB a first second store rs r ha1 t2 (by rw [t1]; exact hdt) (by rw [t1, t3]) hrun s hmem hsT
    rw [t1] at this
    exact this

end Conmech
