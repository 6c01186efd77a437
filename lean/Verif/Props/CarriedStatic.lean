import Verif.Props.CarriedRuns
import Verif.Props.Superposition
/-!
C124 for static problems and for the Poisson equation.
-/
namespace Conmech
open Spec

section
variable {K : Type} [Field K] [LinearOrder K] [IsStrictOrderedRing K]

omit [LinearOrder K] [IsStrictOrderedRing K] in
/-- The equations in weak form. -/
theorem weak_balance {n : ℕ} {D : ℕ → Prop} {A : ℕ → ℕ → K} {g f u z : ℕ → K} (h : BalancedField n A D g f u)
    (hz : ∀ r < n, D r → z r = 0) : form n n A z u = ∑ r ∈ Finset.range n, z r * f r := by
  rw [form_weak]
  refine Finset.sum_congr rfl fun r hr => ?_
  have hr := Finset.mem_range.1 hr
  by_cases hD : D r
  · rw [hz r hr hD]; ring
  · rw [h.balance r hr hD]

omit [LinearOrder K] [IsStrictOrderedRing K] in
/-- C124: two static problems whose operators, supports, prescribed values and loads correspond under a linear map have
corresponding solutions. -/
theorem C124_balanced {n : ℕ} {D D' : ℕ → Prop} {T : (ℕ → K) → ℕ → K} (hT : CarriesFields n D D' T)
    {A A' : ℕ → ℕ → K} (sA : SameForm n T A A') {f f' : ℕ → K} (sf : SameWork n T f f') (hdef : DefiniteOn n D' A')
    {g g' u u' : ℕ → K} (hg : ∀ r < n, D' r → g' r = T g r) (h : BalancedField n A D g f u)
    (h' : BalancedField n A' D' g' f' u') : ∀ r < n, u' r = T u r := by
  set y : ℕ → K := fun r => u' r - T u r with hy
  have hyD : ∀ r < n, D' r → y r = 0 := fun r hr hD => by
    have h0 := hT.held (fun i => 1 * u i + (-1) * g i) (fun s hs hs' => by
      beta_reduce; rw [h.values s hs hs']; ring) r hr hD
    rw [hT.linear 1 (-1) u g r hr] at h0
    rw [hy]
    beta_reduce
    rw [h'.values r hr hD, hg r hr hD]
    linear_combination -h0
  obtain ⟨z, hz, hzy⟩ := hT.onto y hyD
  have e1 := weak_balance h hz
  have e2 := weak_balance h' hyD
  have e3 : form n n A' y u' = quad n A' y + form n n A' (T z) (T u) := by
    rw [quad_eq_form]
    unfold form
    rw [← Finset.sum_add_distrib]
    refine Finset.sum_congr rfl fun r hr => ?_
    rw [← Finset.sum_add_distrib]
    exact Finset.sum_congr rfl fun s hs => by rw [hzy r (Finset.mem_range.1 hr), hy]; ring
  have e4 : ∑ r ∈ Finset.range n, y r * f' r = ∑ r ∈ Finset.range n, z r * f r := by
    rw [← sf z]
    exact Finset.sum_congr rfl fun r hr => by rw [hzy r (Finset.mem_range.1 hr)]
  rw [e3, e4, sA z u, e1] at e2
  exact fun r hr => sub_eq_zero.1 (hdef y hyD (by linear_combination e2) r hr)

/-- C124: when a plane body held by its supports, its loads and the prescribed displacements are moved, turned or
reflected, then so is the displacement returned for the static problem, whichever methods are used. -/
theorem C124_static_moved2 {N : ℕ} {elements : List (List ℕ)} {nodes : ℕ → ℕ → K} (hv : ValidElements 2 N elements)
    (hn : Nondegenerate2 elements nodes) {R : ℕ → ℕ → K} (h : Orthogonal 2 R) (b : ℕ → K) (mu lam : K) (hmu : 0 < mu)
    (hlam : 0 ≤ lam) (D : ℕ → Prop) (hh : ∀ p < N, Held elements (fun q => q < N ∧ D q ∧ D (N + q)) p)
    (e e' : Engine K) (hb : Spec.PlaneBody e N elements nodes mu lam)
    (hb' : Spec.PlaneBody e' N elements (similar 2 1 R b nodes) mu lam) (g g' u u' : ℕ → K)
    (hf : ∀ r < 2 * N, e'.ops.force 0 r = turned 2 N R (e.ops.force 0) r)
    (hg : ∀ r < 2 * N, D r → g' r = turned 2 N R g r)
    (hu : StaticResult e D g u) (hu' : StaticResult e' D g' u') :
    ∀ r < 2 * N, u' r = turned 2 N R u r := by
  classical
  have hn' := nondegenerate2_similar hn h one_ne_zero b
  have hold : HoldsNodes 2 N D := by
    obtain ⟨c, inv, cc, dv, dt, solver, initial, products, store, s, sim, hk, hr, hv, hd, -⟩ := hu
    rw [hb.count] at hv hd
    rw [hb.dimension] at hd
    exact holdsNodes_of_data hv hd
  exact C124_balanced (turned_carries h hold) (C124_turned2 hv hn h b 0 mu lam).2 (sameWork_on hf (turned_work h _))
    (C74_elastic2 hv hn' mu lam hmu hlam D hh) hg (plane_equilibrium hu hb) (plane_equilibrium hu' hb')

/-- C124: when the nodes get other numbers, then the displacement returned for the static problem is the same under the
new numbers. -/
theorem C124_static_relabelled2 {N : ℕ} {elements : List (List ℕ)} {nodes nodes' : ℕ → ℕ → K}
    (hv : ValidElements 2 N elements) (hn : Nondegenerate2 elements nodes') {σ : ℕ → ℕ} (h : Reorders N σ)
    (hnodes : ∀ p < N, nodes (σ p) = nodes' p) (mu lam : K) (hmu : 0 < mu) (hlam : 0 ≤ lam) (D D' : ℕ → Prop)
    (hD : ∀ k < 2, ∀ p < N, D' (k * N + p) ↔ D (k * N + σ p))
    (hh : ∀ p < N, Held elements (fun q => q < N ∧ D' q ∧ D' (N + q)) p) (e e' : Engine K)
    (hb : Spec.PlaneBody e N (elements.map (List.map σ)) nodes mu lam)
    (hb' : Spec.PlaneBody e' N elements nodes' mu lam) (g g' u u' : ℕ → K)
    (hf : ∀ r < 2 * N, e'.ops.force 0 r = renumbered N σ (e.ops.force 0) r)
    (hg : ∀ r < 2 * N, D' r → g' r = renumbered N σ g r)
    (hu : StaticResult e D g u) (hu' : StaticResult e' D' g' u') :
    ∀ p < N, ∀ k < 2, u' (k * N + p) = u (k * N + σ p) := by
  classical
  have key := C124_balanced (renumbered_carries h hD) (C124_renumbered2 hv h hnodes 0 mu lam).2
    (sameWork_on hf (renumbered_work h _)) (C74_elastic2 hv hn mu lam hmu hlam D' hh) hg (plane_equilibrium hu hb)
    (plane_equilibrium hu' hb')
  intro p hp k hk
  have := key _ (block_lt hk hp)
  rwa [renumbered, block_div _ hp, block_mod _ hp] at this

/-- C124: the temperature returned for the Poisson equation does not depend on the position, orientation and size of the
body. With the size the loads at the nodes stay the same in the plane and grow by the same factor in space. -/
theorem C124_poisson_moved {N d : ℕ} {elements : List (List ℕ)} {nodes : ℕ → ℕ → K} {R : ℕ → ℕ → K}
    (h : Orthogonal d R) (b : ℕ → K) (c : K) (hc : 0 < c) (k : K) (hk : k ≠ 0) (D : ℕ → Prop)
    (e e' : Engine K) (hN : e.ops.nodesCount = N) (hN' : e'.ops.nodesCount = N)
    (hp : d = 2 ∧ ValidElements 2 N elements ∧ Nondegenerate2 elements nodes ∧
        (∀ p < N, Joined 3 elements (fun q => q < N ∧ D q) p) ∧
        e.ops.poisson = poissonMatrix 2 (basicMatrices2 elements nodes).W k ∧
        e'.ops.poisson = poissonMatrix 2 (basicMatrices2 elements (similar 2 c R b nodes)).W k ∨
      d = 3 ∧ ValidElements 3 N elements ∧ Nondegenerate3 elements nodes ∧
        (∀ p < N, Joined 4 elements (fun q => q < N ∧ D q) p) ∧
        e.ops.poisson = poissonMatrix 3 (basicMatrices3 elements nodes).W k ∧
        e'.ops.poisson = poissonMatrix 3 (basicMatrices3 elements (similar 3 c R b nodes)).W k)
    (g g' T T' : ℕ → K)
    (hf : ∀ r < N, ¬ D r → e'.ops.bodyTemperature 0 r = c ^ (d - 2) * e.ops.bodyTemperature 0 r)
    (hg : ∀ r < N, D r → g' r = g r) (hT : PoissonResult e D g T) (hT' : PoissonResult e' D g' T') :
    ∀ r < N, T' r = T r := by
  classical
  have q := poisson_equilibrium hT
  have q' := poisson_equilibrium hT'
  rw [hN] at q
  rw [hN'] at q'
  obtain ⟨hdef, hP⟩ : DefiniteOn N D e.ops.poisson ∧ ∀ p r, e'.ops.poisson p r = c ^ (d - 2) * e.ops.poisson p r := by
    rcases hp with ⟨rfl, hv, hn, hj, e1, e2⟩ | ⟨rfl, hv, hn, hj, e1, e2⟩
    · refine ⟨e1 ▸ C74_poisson2 hv hn k hk D hj, fun p r => ?_⟩
      rw [e1, e2, (C90_poisson c hc b k p r).1 hn h]
      simp
    · refine ⟨e1 ▸ C74_poisson3 hv hn k hk D hj, fun p r => ?_⟩
      rw [e1, e2, (C90_poisson c hc b k p r).2 hn h]
      simp
  refine definite_unique (f := e.ops.bodyTemperature 0) hdef
    (fun r hr hD => (q'.values r hr hD).trans ((hg r hr hD).trans (q.values r hr hD).symm)) (fun r hr hD => ?_)
    fun r hr hD => q.balance r hr hD
  have := q'.balance r hr hD
  rw [hf r hr hD] at this
  refine mul_left_cancel₀ (pow_ne_zero (d - 2) hc.ne') (Eq.trans ?_ this)
  unfold act
  rw [Finset.mul_sum]
  exact Finset.sum_congr rfl fun s _ => by rw [hP]; ring

end

/-! ### Examples -/

/-- The quadrilateral of `Superposition.lean` with other triangles and nodes. -/
noncomputable def loadedAt (elements : List (List ℕ)) (nodes : ℕ → ℕ → ℚ) (F : ℕ → ℚ) : Engine ℚ where
  grid := { nodesCount := 4, dimension := 2, nodes := nodes }
  cls := .staticGlobal
  kind := .staticDisplacement
  ops := { quadrilateralOps with
    elasticity := Plane.constitutive 4 (basicMatrices2 elements nodes).W 2 1
    force := fun _ => F }
  boundaries := [⟨.list [0, 1], fun _ => 0⟩]
  solve := fun s _ => exactSolution 8 s.system

theorem loadedAt_result {elements : List (List ℕ)} {nodes : ℕ → ℕ → ℚ} (hv : ValidElements 2 4 elements)
    (hn : Nondegenerate2 elements nodes) (hh : ∀ p < 4, Held elements
      (fun q => q < 4 ∧ (q < 4 * 2 ∧ q % 4 < 2) ∧ 4 + q < 4 * 2 ∧ (4 + q) % 4 < 2) p) (F : ℕ → ℚ) :
    Spec.PlaneBody (loadedAt elements nodes F) 4 elements nodes 2 1 ∧
    ∃ u, StaticResult (loadedAt elements nodes F) (fun r => r < 4 * 2 ∧ r % 4 < 2) (fun _ => 0) u := by
  obtain ⟨hb, hd⟩ := supported_valid 0 2 le_rfl
  have hreg : Registered .StaticDisplacementProblem .staticGlobal .staticDisplacement :=
    ⟨⟨.static, by decide +kernel, by decide +kernel⟩, Or.inl (by decide +kernel)⟩
  have hu := C74_definite 4 2 (loadedAt elements nodes F).boundaries ⟨(loadedAt elements nodes F).ops.elasticity, F⟩
    _ _ hb hd (C74_elastic2 hv hn 2 1 (by norm_num) (by norm_num) _ hh)
  refine ⟨⟨rfl, rfl, rfl⟩, _, .StaticDisplacementProblem, fun _ A => A, 0, false, 1, _, fun _ _ => 0, [],
    ⟨fun _ => ⟨"", none, []⟩, 0⟩, _, _, rfl,
    hreg, hb, hd, rfl, ?_, rfl, rfl⟩
  intro S guess h1 h2
  change Solves 8 S.system (exactSolution 8 S.system)
  rw [h1]
  exact exactSolution_solves 8 _ hu

/-- A reflection. -/
def mirrorX (k l : ℕ) : ℚ := if k = 0 ∧ l = 0 then -1 else if k = 1 ∧ l = 1 then 1 else 0

theorem mirrorX_orthogonal : Orthogonal 2 mirrorX := by
  intro i hi j hj
  interval_cases i <;> interval_cases j <;> simp [mirrorX, Finset.sum_range_succ]

/-- The quadrilateral and its image in a mirror, under any loads. -/
example (F : ℕ → ℚ) (b : ℕ → ℚ) : ∃ u u',
    StaticResult (loadedAt exampleMesh2 exampleNodes2 F) (fun r => r < 4 * 2 ∧ r % 4 < 2) (fun _ => 0) u ∧
    StaticResult (loadedAt exampleMesh2 (similar 2 1 mirrorX b exampleNodes2) (turned 2 4 mirrorX F))
      (fun r => r < 4 * 2 ∧ r % 4 < 2) (fun _ => 0) u' ∧
    ∀ p < 4, u' p = -u p ∧ u' (4 + p) = u (4 + p) := by
  obtain ⟨b₁, u₁, h₁⟩ := loadedAt_result exampleMesh2_valid exampleMesh2_nondegenerate loaded_held F
  obtain ⟨b₂, u₂, h₂⟩ := loadedAt_result exampleMesh2_valid
    (nondegenerate2_similar exampleMesh2_nondegenerate mirrorX_orthogonal one_ne_zero b) loaded_held
    (turned 2 4 mirrorX F)
  refine ⟨u₁, u₂, h₁, h₂, fun p hp => ?_⟩
  have := C124_static_moved2 exampleMesh2_valid exampleMesh2_nondegenerate mirrorX_orthogonal b 2 1 (by norm_num)
    (by norm_num) _ loaded_held _ _ b₁ b₂ _ _ u₁ u₂ (fun _ _ => rfl) (fun r _ _ => by simp [turned]) h₁ h₂
  constructor
  · rw [this p (by omega)]
    simp [turned, mirrorX, Finset.sum_range_succ, Nat.div_eq_of_lt hp, Nat.mod_eq_of_lt hp]
  · rw [this (4 + p) (by omega)]
    simp [turned, mirrorX, Finset.sum_range_succ, show (4 + p) / 4 = 1 by omega, show (4 + p) % 4 = p by omega]

/-- The numbers 0 and 1 exchanged. -/
def exchanged (p : ℕ) : ℕ := if p = 0 then 1 else if p = 1 then 0 else p

/-- The quadrilateral with other numbers, under any loads. -/
example (F : ℕ → ℚ) : ∃ u u',
    StaticResult (loadedAt (exampleMesh2.map (List.map exchanged)) (fun p => exampleNodes2 (exchanged p)) F)
      (fun r => r < 4 * 2 ∧ r % 4 < 2) (fun _ => 0) u ∧
    StaticResult (loadedAt exampleMesh2 exampleNodes2 (renumbered 4 exchanged F))
      (fun r => r < 4 * 2 ∧ r % 4 < 2) (fun _ => 0) u' ∧ u' 0 = u 1 ∧ u' 1 = u 0 ∧ u' 2 = u 2 := by
  have hmap : exampleMesh2.map (List.map exchanged) = [[1, 0, 2], [3, 2, 0]] := by decide
  have hh : ∀ p < 4, Held (exampleMesh2.map (List.map exchanged))
      (fun q => q < 4 ∧ (q < 4 * 2 ∧ q % 4 < 2) ∧ 4 + q < 4 * 2 ∧ (4 + q) % 4 < 2) p := by
    rw [hmap]
    have h0 : Held [[1, 0, 2], [3, 2, 0]]
      (fun q => q < 4 ∧ (q < 4 * 2 ∧ q % 4 < 2) ∧ 4 + q < 4 * 2 ∧ (4 + q) % 4 < 2) 0 := .fixed 0 (by decide)
    have h1 : Held [[1, 0, 2], [3, 2, 0]]
      (fun q => q < 4 ∧ (q < 4 * 2 ∧ q % 4 < 2) ∧ 4 + q < 4 * 2 ∧ (4 + q) % 4 < 2) 1 := .fixed 1 (by decide)
    have h2 : Held [[1, 0, 2], [3, 2, 0]]
      (fun q => q < 4 ∧ (q < 4 * 2 ∧ q % 4 < 2) ∧ 4 + q < 4 * 2 ∧ (4 + q) % 4 < 2) 2 :=
      .triangle [1, 0, 2] (by decide) 0 1 2 (by decide) (by decide) (by decide) (by decide) h1 h0
    have h3 : Held [[1, 0, 2], [3, 2, 0]]
      (fun q => q < 4 ∧ (q < 4 * 2 ∧ q % 4 < 2) ∧ 4 + q < 4 * 2 ∧ (4 + q) % 4 < 2) 3 :=
      .triangle [3, 2, 0] (by decide) 1 2 0 (by decide) (by decide) (by decide) (by decide) h2 h0
    intro p hp
    interval_cases p <;> assumption
  have hv : ValidElements 2 4 (exampleMesh2.map (List.map exchanged)) := by rw [hmap]; unfold ValidElements; decide
  have hn : Nondegenerate2 (exampleMesh2.map (List.map exchanged)) (fun p => exampleNodes2 (exchanged p)) := by
    rw [hmap]
    intro e he
    simp only [List.mem_cons, List.not_mem_nil, or_false] at he
    rcases he with rfl | rfl <;> norm_num [det2, vertices, exampleNodes2, exchanged]
  have hinv : ∀ p, exchanged (exchanged p) = p := fun p => by unfold exchanged; grind
  obtain ⟨b₁, u₁, h₁⟩ := loadedAt_result hv hn hh F
  obtain ⟨b₂, u₂, h₂⟩ := loadedAt_result exampleMesh2_valid exampleMesh2_nondegenerate loaded_held
    (renumbered 4 exchanged F)
  have := C124_static_relabelled2 exampleMesh2_valid exampleMesh2_nondegenerate (σ := exchanged)
    ⟨by decide, by decide⟩ (fun p _ => by beta_reduce; rw [hinv]) 2 1 (by norm_num) (by norm_num) _ _
    (by decide) loaded_held _ _ b₁ b₂ _ _ u₁ u₂ (fun _ _ => rfl) (fun _ _ _ => rfl) h₁ h₂
  exact ⟨u₁, u₂, h₁, h₂, this 0 (by norm_num) 0 (by norm_num), this 1 (by norm_num) 0 (by norm_num),
    this 2 (by norm_num) 0 (by norm_num)⟩

/-- The Poisson problem of `Superposition.lean` at other nodes. -/
noncomputable def sourceAt (nodes : ℕ → ℕ → ℚ) (Q : ℕ → ℚ) (c : ℚ) : Engine ℚ where
  grid := { nodesCount := 4, dimension := 2, nodes := nodes }
  cls := .staticGlobal
  kind := .staticPoisson
  ops := { quadrilateralOps with
    poisson := poissonMatrix 2 (basicMatrices2 exampleMesh2 nodes).W (1 / 2)
    bodyTemperature := fun _ => Q }
  boundaries := [⟨.list [0, 1], fun _ => c⟩]
  solve := fun s _ => exactSolution 4 s.system

theorem sourceAt_ops (nodes : ℕ → ℕ → ℚ) (Q : ℕ → ℚ) (c : ℚ) : (sourceAt nodes Q c).ops.nodesCount = 4 ∧
    (sourceAt nodes Q c).ops.poisson = poissonMatrix 2 (basicMatrices2 exampleMesh2 nodes).W (1 / 2) ∧
    (sourceAt nodes Q c).ops.bodyTemperature = fun _ => Q := ⟨rfl, rfl, rfl⟩

theorem sourceAt_result {nodes : ℕ → ℕ → ℚ} (hn : Nondegenerate2 exampleMesh2 nodes) (Q : ℕ → ℚ) (c : ℚ) :
    ∃ T, PoissonResult (sourceAt nodes Q c) (fun r => r < 4 * 1 ∧ r % 4 < 2) (fun _ => c) T := by
  obtain ⟨hb, hd⟩ := supported_valid c 1 (by omega)
  have hreg : Registered .PoissonProblem .staticGlobal .staticPoisson :=
    ⟨⟨.static, by decide +kernel, by decide +kernel⟩, Or.inr (by decide +kernel)⟩
  have hu := C74_definite 4 1 (sourceAt nodes Q c).boundaries ⟨(sourceAt nodes Q c).ops.poisson, Q⟩ _ _ hb hd
    (by
      rw [Nat.one_mul]
      exact C74_poisson2 exampleMesh2_valid hn (1 / 2) (by norm_num) _ source_joined)
  refine ⟨_, .PoissonProblem, fun _ A => A, 0, false, 1, _, _, _, rfl, hreg, hb, hd, rfl, ?_, rfl, rfl⟩
  intro S guess h1 h2
  change Solves 4 S.system (exactSolution 4 S.system)
  rw [h1]
  exact exactSolution_solves 4 _ hu

/-- The Poisson problem on the quadrilateral and on its image of twice the size. -/
example (Q : ℕ → ℚ) (c : ℚ) (b : ℕ → ℚ) : ∃ T T',
    PoissonResult (sourceAt exampleNodes2 Q c) (fun r => r < 4 * 1 ∧ r % 4 < 2) (fun _ => c) T ∧
    PoissonResult (sourceAt (similar 2 2 mirrorX b exampleNodes2) Q c) (fun r => r < 4 * 1 ∧ r % 4 < 2)
      (fun _ => c) T' ∧ ∀ r < 4, T' r = T r := by
  obtain ⟨T, h⟩ := sourceAt_result exampleMesh2_nondegenerate Q c
  obtain ⟨T', h'⟩ := sourceAt_result
    (nondegenerate2_similar exampleMesh2_nondegenerate mirrorX_orthogonal two_ne_zero b) Q c
  obtain ⟨o1, o2, o3⟩ := sourceAt_ops exampleNodes2 Q c
  obtain ⟨o1', o2', o3'⟩ := sourceAt_ops (similar 2 2 mirrorX b exampleNodes2) Q c
  refine ⟨T, T', h, h', C124_poisson_moved (d := 2) mirrorX_orthogonal b 2 (by norm_num) (1 / 2) (by norm_num) _
    _ _ o1 o1' (.inl ⟨rfl, exampleMesh2_valid, exampleMesh2_nondegenerate, source_joined, o2, o2'⟩) _ _ _ _
    (fun _ _ _ => ?_) (fun _ _ _ => rfl) h h'⟩
  rw [o3, o3']
  simp

end Conmech
