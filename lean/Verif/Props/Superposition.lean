import Verif.Spec.Superposition
import Verif.Props.Patch
import Verif.Props.Balance
/-!
C99: superposition, reciprocity and the reactions of the supports.

`D` is the set of constrained degrees of freedom, `g` gives their values and `f` the loads.
-/
namespace Conmech
open Spec

section algebra
variable {K : Type} [Field K] [LinearOrder K] [IsStrictOrderedRing K]
variable {n : ℕ} {A A' : ℕ → ℕ → K} {D D' : ℕ → Prop} {g g₁ g₂ f f₁ f₂ u u' u₁ u₂ : ℕ → K}

omit [LinearOrder K] [IsStrictOrderedRing K] in
/-- Away from the supports there are no reactions. -/
theorem Spec.BalancedField.reaction_zero (h : BalancedField n A D g f u) {r : ℕ} (hr : r < n) (hD : ¬ D r) :
    reaction n A f u r = 0 := by
  rw [reaction, h.balance r hr hD, sub_self]

omit [LinearOrder K] [IsStrictOrderedRing K] in
/-- The work of loads and reactions along a field. -/
theorem work_reaction (A : ℕ → ℕ → K) (f u v : ℕ → K) :
    work n (fun r => f r + reaction n A f u r) v = bilin n A v u := by
  unfold work reaction
  rw [← bilin_eq_act]
  exact Finset.sum_congr rfl fun r _ => by ring

omit [LinearOrder K] [IsStrictOrderedRing K] in
/-- The loads alone do the work along fields that vanish on the supports. -/
theorem Spec.BalancedField.work_eq (h : BalancedField n A D g f u) {v : ℕ → K} (hv : ∀ r < n, D r → v r = 0) :
    work n f v = bilin n A v u := by
  rw [← work_reaction A f u v]
  unfold work
  refine Finset.sum_congr rfl fun r hr => ?_
  by_cases hD : D r
  · rw [hv r (Finset.mem_range.1 hr) hD]; ring
  · beta_reduce
    rw [h.reaction_zero (Finset.mem_range.1 hr) hD]; ring

omit [LinearOrder K] [IsStrictOrderedRing K] in
theorem act_combination (A : ℕ → ℕ → K) (a b : K) (x y : ℕ → K) (r : ℕ) :
    act n A (fun i => a * x i + b * y i) r = a * act n A x r + b * act n A y r := by
  unfold act
  rw [Finset.mul_sum, Finset.mul_sum, ← Finset.sum_add_distrib]
  exact Finset.sum_congr rfl fun s _ => by ring

/-- C99: the solution for a combination of loads and prescribed values is the combination of the
solutions. -/
theorem C99_superposition [DecidablePred D] (hdef : DefiniteOn n D A) (a b : K)
    (h₁ : BalancedField n A D g₁ f₁ u₁) (h₂ : BalancedField n A D g₂ f₂ u₂)
    (h : BalancedField n A D (fun r => a * g₁ r + b * g₂ r) (fun r => a * f₁ r + b * f₂ r) u) :
    ∀ r < n, u r = a * u₁ r + b * u₂ r :=
  definite_unique (x := u) (y := fun r => a * u₁ r + b * u₂ r) (f := fun r => a * f₁ r + b * f₂ r) hdef (fun r hr hD => by rw [h.values r hr hD, h₁.values r hr hD, h₂.values r hr hD])
    h.balance fun r hr hD => by rw [act_combination, h₁.balance r hr hD, h₂.balance r hr hD]

omit [LinearOrder K] [IsStrictOrderedRing K] in
/-- C99: for two load cases the loads and reactions of each do the same work along the displacement of
the other; with supports that do not move the loads alone do. -/
theorem C99_reciprocity (hA : ∀ r < n, ∀ s < n, A r s = A s r) (h₁ : BalancedField n A D g₁ f₁ u₁)
    (h₂ : BalancedField n A D g₂ f₂ u₂) :
    work n (fun r => f₁ r + reaction n A f₁ u₁ r) u₂ = work n (fun r => f₂ r + reaction n A f₂ u₂ r) u₁ ∧
    ((∀ r < n, D r → g₁ r = 0 ∧ g₂ r = 0) → work n f₁ u₂ = work n f₂ u₁) := by
  refine ⟨by rw [work_reaction, work_reaction, bilin_symm n A hA], fun h0 => ?_⟩
  rw [h₁.work_eq fun r hr hD => (h₂.values r hr hD).trans (h0 r hr hD).2,
    h₂.work_eq fun r hr hD => (h₁.values r hr hD).trans (h0 r hr hD).1, bilin_symm n A hA]

omit [LinearOrder K] [IsStrictOrderedRing K] in
/-- C99: along a field which meets no resistance the reactions of the supports balance the loads. -/
theorem C99_reactions (z : ℕ → K) (hz : Unresisted n A z) (h : BalancedField n A D g f u) :
    (∀ r < n, ¬ D r → reaction n A f u r = 0) ∧ work n (reaction n A f u) z = -work n f z := by
  refine ⟨fun r hr hD => h.reaction_zero hr hD, ?_⟩
  have h1 := work_reaction (n := n) A f u z
  have h2 : bilin n A z u = 0 := by
    rw [← bilin_eq_act]
    simp only [act, Finset.mul_sum]
    rw [Finset.sum_comm]
    refine Finset.sum_eq_zero fun s hs => ?_
    have := hz s (Finset.mem_range.1 hs)
    calc _ = (∑ r ∈ Finset.range n, z r * A r s) * u s := by
            rw [Finset.sum_mul]; exact Finset.sum_congr rfl fun r _ => by ring
      _ = 0 := by rw [this, zero_mul]
  rw [h2] at h1
  have h3 : work n (fun r => f r + reaction n A f u r) z = work n f z + work n (reaction n A f u) z := by
    unfold work
    rw [← Finset.sum_add_distrib]
    exact Finset.sum_congr rfl fun r _ => by ring
  linear_combination h1 - h3

/-- C99: a field is in equilibrium exactly if it has the least energy among the fields with its values
on the supports. -/
theorem C99_least_energy (hA : StoresEnergy n A) (hu : ∀ r < n, D r → u r = g r) :
    BalancedField n A D g f u ↔
      ∀ v : ℕ → K, (∀ r < n, D r → v r = g r) → energy n ⟨A, f⟩ u ≤ energy n ⟨A, f⟩ v := by
  have expand : ∀ d : ℕ → K, energy n ⟨A, f⟩ (fun i => u i + d i) = energy n ⟨A, f⟩ u +
      ∑ r ∈ Finset.range n, d r * reaction n A f u r + 1 / 2 * quad n A d :=
    fun d => energy_expand n ⟨A, f⟩ hA.symm u d
  constructor
  · intro h v hv
    have h1 := expand fun i => v i - u i
    rw [Finset.sum_eq_zero fun r hr => ?_, add_zero] at h1
    · have h2 : (fun i => u i + (v i - u i)) = v := by funext i; ring
      rw [h2] at h1
      rw [h1]
      have := hA.nonneg fun i => v i - u i
      linarith
    · by_cases hD : D r
      · rw [hv r (Finset.mem_range.1 hr) hD, hu r (Finset.mem_range.1 hr) hD]; ring
      · rw [h.reaction_zero (Finset.mem_range.1 hr) hD, mul_zero]
  · intro h
    refine ⟨hu, fun r hr hD => ?_⟩
    have key : ∀ t : K, 0 ≤ t * reaction n A f u r + 1 / 2 * (t * t) * quad n A (single r) := by
      intro t
      have h1 := expand fun i => t * single r i
      have h2 := h (fun i => u i + t * single r i) fun s hs hDs => by
        have : s ≠ r := fun e => hD (e ▸ hDs)
        simp [single, this, hu s hs hDs]
      rw [h1] at h2
      have h3 : ∑ s ∈ Finset.range n, t * single r s * reaction n A f u s = t * reaction n A f u r := by
        rw [Finset.sum_eq_single r]
        · simp [single]
        · intro s _ hs; simp [single, hs]
        · intro h; exact absurd (Finset.mem_range.2 hr) h
      have h4 : quad n A (fun i => t * single r i) = t * t * quad n A (single r) := by
        simp only [quad_eq_bilin]
        rw [bilin_smul_left, bilin_smul_right]; ring
      rw [h3, h4] at h2
      linarith
    have hq := hA.nonneg (single r)
    set R := reaction n A f u r with hR
    set q := quad n A (single r) with hq'
    have : R = 0 := by
      by_contra hne
      have h1 := key (-R / (q + 1))
      have hq1 : 0 < q + 1 := by linarith
      have h2 : -R / (q + 1) * R + 1 / 2 * (-R / (q + 1) * (-R / (q + 1))) * q =
          -(R * R) * (q + 2) / (2 * ((q + 1) * (q + 1))) := by
        field_simp
        ring
      rw [h2] at h1
      have h3 : -(R * R) * (q + 2) < 0 := by
        have := mul_self_pos.2 hne
        have h5 : 0 < q + 2 := by linarith
        have := mul_pos this h5
        linarith
      have := div_neg_of_neg_of_pos h3 (by positivity : 0 < 2 * ((q + 1) * (q + 1)))
      linarith
    rw [hR, reaction, sub_eq_zero] at this
    exact this

/-- C99: with supports that do not move the work of the loads is the energy stored, and it can only
shrink when the body is made stiffer and more of it is supported. -/
theorem C99_stiffer (hA : StoresEnergy n A) (hle : ∀ x, quad n A x ≤ quad n A' x)
    (hD : ∀ r < n, D r → D' r)
    (h : BalancedField n A D (fun _ => 0) f u) (h' : BalancedField n A' D' (fun _ => 0) f u') :
    work n f u = quad n A u ∧ 0 ≤ work n f u' ∧ work n f u' ≤ work n f u := by
  have e1 : work n f u = quad n A u := h.work_eq h.values
  have e2 : work n f u' = quad n A' u' := h'.work_eq h'.values
  have e3 : work n f u' = bilin n A u' u := h.work_eq fun r hr hDr => h'.values r hr (hD r hr hDr)
  refine ⟨e1, ?_, ?_⟩
  · rw [e2]; exact (hA.nonneg u').trans (hle u')
  · have h1 := hA.nonneg fun i => u i - u' i
    rw [quad_eq_bilin, bilin_sub_left, bilin_sub_right, bilin_sub_right, bilin_symm n A hA.symm u u',
      ← e3, ← quad_eq_bilin, ← quad_eq_bilin, ← e1] at h1
    have h2 := hle u'
    linarith
end algebra

section runs
variable {K : Type} [Field K] [LinearOrder K] [IsStrictOrderedRing K]
variable {N : ℕ} {elements : List (List ℕ)} {nodes : ℕ → ℕ → K}

/-- `u` is the displacement which `StaticSolver.solve` returns for the problem of `e` with some
registered method, some initial displacement and some backend that solves its systems; the conditions
of the problem prescribe the values `g` on `D`. -/
def Spec.StaticResult (e : Engine K) (D : ℕ → Prop) (g u : ℕ → K) : Prop :=
  ∃ (c : ProblemClass) (inv : ℕ → (ℕ → ℕ → K) → ℕ → ℕ → K) (contactCount : ℕ) (dv : Bool) (dt : K)
    (solver : SolverState K) (initial : ℕ → ℕ → K) (products : List ℕ) (store : ProductStore K Unit)
    (s : State K) (sim : Simulation K Unit),
    e.kind = .staticDisplacement ∧ Registered c e.cls e.kind ∧
    ValidBoundaries e.ops.nodesCount e.boundaries ∧
    DirichletData e.ops.nodesCount e.ops.dimension e.boundaries D g ∧
    solverInit inv e.cls e.kind e.ops e.boundaries contactCount dv dt = .ok solver ∧
    SolvesHeld e (e.ops.dimension * e.ops.nodesCount) solver ∧
    e.staticSolve initial products solver store = .ok (s, sim) ∧
    u = State.flatten e.grid s.displacement

omit [IsStrictOrderedRing K] in
theorem static_equilibrium {e : Engine K} {D : ℕ → Prop} {g u : ℕ → K} (h : StaticResult e D g u) :
    BalancedField (e.ops.dimension * e.ops.nodesCount) e.ops.elasticity D g (e.ops.force 0) u := by
  classical
  obtain ⟨c, inv, cc, dv, dt, solver, initial, products, store, s, sim, hk, hr, hv, hd, hi, hs, hrun, rfl⟩ := h
  obtain ⟨h1, h2⟩ := C75_static e hk hr D g hv hd inv cc dv dt solver hi hs initial products store s sim hrun
  exact ⟨h1, h2⟩

/-- The problem of `e` is one of static elasticity on the given triangles. -/
structure Spec.PlaneBody (e : Engine K) (N : ℕ) (elements : List (List ℕ)) (nodes : ℕ → ℕ → K)
    (mu lam : K) : Prop where
  count : e.ops.nodesCount = N
  dimension : e.ops.dimension = 2
  elasticity : e.ops.elasticity = Plane.constitutive N (basicMatrices2 elements nodes).W mu lam

omit [IsStrictOrderedRing K] in
theorem plane_equilibrium {e : Engine K} {D : ℕ → Prop} {g u : ℕ → K} {mu lam : K}
    (h : StaticResult e D g u) (hb : PlaneBody e N elements nodes mu lam) :
    BalancedField (2 * N) (Plane.constitutive N (basicMatrices2 elements nodes).W mu lam) D g
      (e.ops.force 0) u := by
  have := static_equilibrium h
  rwa [hb.count, hb.dimension, hb.elasticity] at this

/-- C99: displacements of the same supported body add up when loads and prescribed values do. -/
theorem C99_static_superposition (hv : ValidElements 2 N elements) (hn : Nondegenerate2 elements nodes)
    (mu lam : K) (hmu : 0 < mu) (hlam : 0 ≤ lam) (D : ℕ → Prop)
    (hh : ∀ p < N, Held elements (fun q => q < N ∧ D q ∧ D (N + q)) p) (e e₁ e₂ : Engine K)
    (hb : PlaneBody e N elements nodes mu lam) (hb₁ : PlaneBody e₁ N elements nodes mu lam)
    (hb₂ : PlaneBody e₂ N elements nodes mu lam) (g g₁ g₂ u u₁ u₂ : ℕ → K)
    (h : StaticResult e D g u) (h₁ : StaticResult e₁ D g₁ u₁) (h₂ : StaticResult e₂ D g₂ u₂) (a b : K)
    (hf : ∀ r < 2 * N, ¬ D r → e.ops.force 0 r = a * e₁.ops.force 0 r + b * e₂.ops.force 0 r)
    (hg : ∀ r < 2 * N, D r → g r = a * g₁ r + b * g₂ r) :
    ∀ r < 2 * N, u r = a * u₁ r + b * u₂ r := by
  classical
  have hu := plane_equilibrium h hb
  exact C99_superposition (C74_elastic2 hv hn mu lam hmu hlam D hh) a b (plane_equilibrium h₁ hb₁)
    (plane_equilibrium h₂ hb₂)
    ⟨fun r hr hD => (hu.values r hr hD).trans (hg r hr hD),
      fun r hr hD => (hu.balance r hr hD).trans (hf r hr hD)⟩

/-- C99: the loads of one problem of a body with fixed supports do the same work along the displacement
of another as those of the other along the displacement of the first. -/
theorem C99_static_reciprocity (hv : ValidElements 2 N elements) (hn : Nondegenerate2 elements nodes)
    (mu lam : K) (D : ℕ → Prop) (e₁ e₂ : Engine K)
    (hb₁ : PlaneBody e₁ N elements nodes mu lam) (hb₂ : PlaneBody e₂ N elements nodes mu lam)
    (g₁ g₂ u₁ u₂ : ℕ → K) (h₁ : StaticResult e₁ D g₁ u₁) (h₂ : StaticResult e₂ D g₂ u₂)
    (h0 : ∀ r < 2 * N, D r → g₁ r = 0 ∧ g₂ r = 0) :
    work (2 * N) (e₁.ops.force 0) u₂ = work (2 * N) (e₂.ops.force 0) u₁ :=
  (C99_reciprocity (C26_symmetric hv hn mu lam) (plane_equilibrium h₁ hb₁)
    (plane_equilibrium h₂ hb₂)).2 h0

/-- A sum over the degrees of freedom of a plane field. -/
theorem sum_plane (N : ℕ) (x : ℕ → K) :
    ∑ r ∈ Finset.range (2 * N), x r = ∑ p ∈ Finset.range N, (x p + x (N + p)) := by
  rw [two_mul, Finset.sum_range_add, Finset.sum_add_distrib]

/-- C99: there are reactions at the supports only, and their resultant and their moment are those of
the loads with the opposite sign. -/
theorem C99_static_reactions (hv : ValidElements 2 N elements) (hn : Nondegenerate2 elements nodes)
    (mu lam : K) (D : ℕ → Prop) (e : Engine K) (hb : PlaneBody e N elements nodes mu lam)
    (g u : ℕ → K) (h : StaticResult e D g u) :
    let R := reaction (2 * N) (Plane.constitutive N (basicMatrices2 elements nodes).W mu lam)
      (e.ops.force 0) u
    let f := e.ops.force 0
    (∀ r < 2 * N, ¬ D r → R r = 0) ∧
    ∑ p ∈ Finset.range N, R p = -∑ p ∈ Finset.range N, f p ∧
    ∑ p ∈ Finset.range N, R (N + p) = -∑ p ∈ Finset.range N, f (N + p) ∧
    ∑ p ∈ Finset.range N, (nodes p 0 * R (N + p) - nodes p 1 * R p) =
      -∑ p ∈ Finset.range N, (nodes p 0 * f (N + p) - nodes p 1 * f p) := by
  intro R f
  have heq := plane_equilibrium h hb
  have key : ∀ (c : ℕ → K) (w : K), ∑ p ∈ Finset.range N,
      (R p * (c 0 - w * nodes p 1) + R (N + p) * (c 1 + w * nodes p 0)) =
      -∑ p ∈ Finset.range N, (f p * (c 0 - w * nodes p 1) + f (N + p) * (c 1 + w * nodes p 0)) := by
    intro c w
    let z : ℕ → K := fun r => if r < N then c 0 - w * nodes r 1 else c 1 + w * nodes (r - N) 0
    have hz : RigidMotion 2 N nodes z := by
      refine ⟨c, fun a k => if a = 0 ∧ k = 1 then -w else if a = 1 ∧ k = 0 then w else 0, ?_, ?_⟩
      · intro a ha k hk
        interval_cases a <;> interval_cases k <;> simp
      · intro a ha p hp
        interval_cases a
        · simp [z, hp, Finset.sum_range_succ, sub_eq_add_neg]
        · simp [z, Finset.sum_range_succ]
    have h1 := (C99_reactions z ((C72_rigid2 hv hn mu lam 0 z).1 hz) heq).2
    unfold work at h1
    rw [sum_plane, sum_plane] at h1
    have h2 : ∀ y : ℕ → K, ∑ p ∈ Finset.range N, (y p * z p + y (N + p) * z (N + p)) =
        ∑ p ∈ Finset.range N, (y p * (c 0 - w * nodes p 1) + y (N + p) * (c 1 + w * nodes p 0)) := by
      intro y
      refine Finset.sum_congr rfl fun p hp => ?_
      simp [z, Finset.mem_range.1 hp]
    rw [h2, h2] at h1
    exact h1
  refine ⟨fun r hr hD => heq.reaction_zero hr hD, ?_, ?_, ?_⟩
  · simpa using key (fun a => if a = 0 then 1 else 0) 0
  · simpa using key (fun a => if a = 1 then 1 else 0) 0
  · have := key (fun _ => 0) 1
    simp only [zero_sub, zero_add, one_mul] at this
    rw [Finset.sum_congr rfl fun p _ => show nodes p 0 * R (N + p) - nodes p 1 * R p =
      R p * -nodes p 1 + R (N + p) * nodes p 0 by ring, this]
    exact congrArg _ (Finset.sum_congr rfl fun p _ => by ring)

/-- The energy grows with the coefficients. -/
theorem elastic_le (hv : ValidElements 2 N elements) (hn : Nondegenerate2 elements nodes)
    {mu lam mu' lam' : K} (hmu : mu ≤ mu') (hlam : lam ≤ lam') (x : ℕ → K) :
    quad (2 * N) (Plane.constitutive N (basicMatrices2 elements nodes).W mu lam) x ≤
      quad (2 * N) (Plane.constitutive N (basicMatrices2 elements nodes).W mu' lam') x := by
  obtain ⟨X, hX⟩ := exists_vectorGradient (N := N) (Plane.allLocal hn) x
  rw [quad_eq_form, quad_eq_form, C26_hooke hv hn mu lam x x X X hX hX,
    C26_hooke hv hn mu' lam' x x X X hX hX]
  unfold elasticEnergy sumElements
  refine Finset.sum_le_sum fun t ht => ?_
  refine mul_le_mul_of_nonneg_left ?_
    (Plane.allLocal hn _ (getD_mem (Finset.mem_range.1 ht))).pos.le
  have := hooke_nonneg 2 (sub_nonneg.2 hmu) (sub_nonneg.2 hlam) (X t)
  unfold hooke at this ⊢
  linarith

/-- C99: with fixed supports the loads do nonnegative work, and less work on a stiffer body or on one
with more supports. -/
theorem C99_static_stiffer (hv : ValidElements 2 N elements) (hn : Nondegenerate2 elements nodes)
    (mu lam mu' lam' : K) (h0mu : 0 ≤ mu) (h0lam : 0 ≤ lam) (hmu : mu ≤ mu') (hlam : lam ≤ lam')
    (D D' : ℕ → Prop) (hD : ∀ r < 2 * N, D r → D' r) (e e' : Engine K)
    (hb : PlaneBody e N elements nodes mu lam) (hb' : PlaneBody e' N elements nodes mu' lam')
    (hf : e'.ops.force 0 = e.ops.force 0) (u u' : ℕ → K)
    (h : StaticResult e D (fun _ => 0) u) (h' : StaticResult e' D' (fun _ => 0) u') :
    0 ≤ work (2 * N) (e.ops.force 0) u' ∧
    work (2 * N) (e.ops.force 0) u' ≤ work (2 * N) (e.ops.force 0) u := by
  have hu' := plane_equilibrium h' hb'
  rw [hf] at hu'
  exact (C99_stiffer (storesEnergy_of_form (C26_symmetric hv hn mu lam) (C26_nonneg hv hn mu lam h0mu h0lam))
    (elastic_le hv hn hmu hlam) hD (plane_equilibrium h hb) hu').2

/-- C99: reciprocity in space, and the balance of forces. -/
theorem C99_space_partial (hv : ValidElements 3 N elements) (hn : Nondegenerate3 elements nodes)
    (mu lam : K) (D : ℕ → Prop) (g₁ g₂ f₁ f₂ u₁ u₂ : ℕ → K)
    (h₁ : BalancedField (3 * N) (Space.constitutive N (basicMatrices3 elements nodes).W mu lam) D g₁ f₁ u₁)
    (h₂ : BalancedField (3 * N) (Space.constitutive N (basicMatrices3 elements nodes).W mu lam) D g₂ f₂ u₂) :
    ((∀ r < 3 * N, D r → g₁ r = 0 ∧ g₂ r = 0) → work (3 * N) f₁ u₂ = work (3 * N) f₂ u₁) ∧
    ∀ (z c : ℕ → K), (∀ a < 3, ∀ p < N, z (a * N + p) = c a) →
      work (3 * N) (reaction (3 * N) (Space.constitutive N (basicMatrices3 elements nodes).W mu lam) f₁ u₁) z =
        -work (3 * N) f₁ z := by
  obtain ⟨hs, ht⟩ := C27_symmetric_translation_partial hv hn mu lam
  refine ⟨(C99_reciprocity hs h₁ h₂).2, fun z c hz => (C99_reactions z ?_ h₁).2⟩
  intro s hsn
  rw [← ht z c hz s hsn]
  exact Finset.sum_congr rfl fun r hr => by rw [hs r (Finset.mem_range.1 hr) s hsn, mul_comm]

/-- C99 fails for moments in space: on every non-empty mesh, whenever `μ ≠ λ`, there is a body without
loads held in a rotated position whose supports exert a moment. -/
theorem C99_moment_wrong (hv : ValidElements 3 N elements) (hn : Nondegenerate3 elements nodes)
    (hne : elements ≠ []) (mu lam : K) (hml : mu ≠ lam) :
    ∃ (z u : ℕ → K), RigidMotion 3 N nodes z ∧
      BalancedField (3 * N) (Space.constitutive N (basicMatrices3 elements nodes).W mu lam) (fun _ => True) u
        (fun _ => 0) u ∧
      work (3 * N) (reaction (3 * N) (Space.constitutive N (basicMatrices3 elements nodes).W mu lam)
        (fun _ => 0) u) z ≠ -work (3 * N) (fun _ => 0) z := by
  obtain ⟨u, hu, he, -⟩ := C27_rotation_wrong hv hn hne mu lam hml
  refine ⟨u, u, hu, ⟨fun _ _ _ => rfl, fun _ _ h => absurd trivial h⟩, ?_⟩
  have h1 : work (3 * N) (reaction (3 * N) (Space.constitutive N (basicMatrices3 elements nodes).W mu lam)
      (fun _ => 0) u) u = quad (3 * N) (Space.constitutive N (basicMatrices3 elements nodes).W mu lam) u := by
    unfold work reaction quad act
    exact Finset.sum_congr rfl fun r _ => by ring
  have h2 : work (3 * N) (fun _ => (0 : K)) u = 0 := by simp [work]
  have hpos : 0 < sumElements elements (fun _ e => Spec.volume (vertices nodes e)) :=
    Finset.sum_pos (fun t ht => (Space.allLocal hn _ (getD_mem (Finset.mem_range.1 ht))).pos)
      ⟨0, Finset.mem_range.2 (List.length_pos_of_ne_nil hne)⟩
  rw [h1, h2, quad_eq_form, he, neg_zero]
  exact mul_ne_zero (mul_ne_zero two_ne_zero (sub_ne_zero.2 hml)) hpos.ne'

/-- `T` is the temperature which `PoissonSolver.solve` returns for the problem of `e` with some registered
method and some backend that solves its systems. -/
def Spec.PoissonResult (e : Engine K) (D : ℕ → Prop) (g T : ℕ → K) : Prop :=
  ∃ (c : ProblemClass) (inv : ℕ → (ℕ → ℕ → K) → ℕ → ℕ → K) (contactCount : ℕ) (dv : Bool) (dt : K)
    (solver solver' : SolverState K) (s : State K),
    e.kind = .staticPoisson ∧ Registered c e.cls e.kind ∧
    ValidBoundaries e.ops.nodesCount e.boundaries ∧
    DirichletData e.ops.nodesCount 1 e.boundaries D g ∧
    solverInit inv e.cls e.kind e.ops e.boundaries contactCount dv dt = .ok solver ∧
    SolvesHeld e e.ops.nodesCount solver ∧
    e.poissonSolve solver = .ok (s, solver') ∧ s.scalar = .temperature T

omit [IsStrictOrderedRing K] in
theorem poisson_equilibrium {e : Engine K} {D : ℕ → Prop} {g T : ℕ → K} (h : PoissonResult e D g T) :
    BalancedField e.ops.nodesCount e.ops.poisson D g (e.ops.bodyTemperature 0) T := by
  classical
  obtain ⟨c, inv, cc, dv, dt, solver, solver', s, hk, hr, hv, hd, hi, hs, hrun, hT⟩ := h
  obtain ⟨s₁, s₂, h1, T₁, h2, h3, h4⟩ := C75_poisson e hk hr D g hv hd inv cc dv dt solver hi
    fun S h1 h2 _ => hs S _ h1 h2
  rw [hrun] at h1
  simp only [Except.ok.injEq, Prod.mk.injEq] at h1
  rw [← h1.1, hT] at h2
  injection h2 with h2
  subst h2
  exact ⟨h3, h4⟩

/-- C99: for the Poisson equation on a triangular mesh: temperatures add up when sources and prescribed
temperatures do, the influence of one source on the place of another is mutual, and the heat which
leaves at the prescribed temperatures is the heat of the sources. -/
theorem C99_poisson (hv : ValidElements 2 N elements) (hn : Nondegenerate2 elements nodes) (k : K)
    (hk : k ≠ 0) (D : ℕ → Prop) (e e₁ e₂ : Engine K)
    (hN : e.ops.nodesCount = N ∧ e₁.ops.nodesCount = N ∧ e₂.ops.nodesCount = N)
    (hp : ∀ e' ∈ [e, e₁, e₂], e'.ops.poisson = poissonMatrix 2 (basicMatrices2 elements nodes).W k)
    (g g₁ g₂ u u₁ u₂ : ℕ → K)
    (h : PoissonResult e D g u) (h₁ : PoissonResult e₁ D g₁ u₁) (h₂ : PoissonResult e₂ D g₂ u₂) :
    let P := poissonMatrix 2 (basicMatrices2 elements nodes).W k
    (∀ a b : K, (∀ p < N, Joined 3 elements (fun q => q < N ∧ D q) p) →
      (∀ r < N, ¬ D r → e.ops.bodyTemperature 0 r =
        a * e₁.ops.bodyTemperature 0 r + b * e₂.ops.bodyTemperature 0 r) →
      (∀ r < N, D r → g r = a * g₁ r + b * g₂ r) → ∀ r < N, u r = a * u₁ r + b * u₂ r) ∧
    ((∀ r < N, D r → g₁ r = 0 ∧ g₂ r = 0) →
      work N (e₁.ops.bodyTemperature 0) u₂ = work N (e₂.ops.bodyTemperature 0) u₁) ∧
    (∀ r < N, ¬ D r → reaction N P (e.ops.bodyTemperature 0) u r = 0) ∧
    ∑ p ∈ Finset.range N, reaction N P (e.ops.bodyTemperature 0) u p =
      -∑ p ∈ Finset.range N, e.ops.bodyTemperature 0 p := by
  classical
  intro P
  have q := poisson_equilibrium h
  have q₁ := poisson_equilibrium h₁
  have q₂ := poisson_equilibrium h₂
  rw [hN.1, hp e (by simp)] at q
  rw [hN.2.1, hp e₁ (by simp)] at q₁
  rw [hN.2.2, hp e₂ (by simp)] at q₂
  obtain ⟨hs, -⟩ := C25_poisson2 hv hn k
  refine ⟨fun a b hj hf hg => ?_, (C99_reciprocity hs q₁ q₂).2, ?_⟩
  · exact C99_superposition (C74_poisson2 hv hn k hk D hj) a b q₁ q₂
      ⟨fun r hr hD => (q.values r hr hD).trans (hg r hr hD),
        fun r hr hD => (q.balance r hr hD).trans (hf r hr hD)⟩
  · obtain ⟨z1, z2⟩ := C99_reactions (fun _ => 1) ((C72_rigid2 hv hn 0 0 k fun _ => 1).2 fun _ _ => rfl) q
    exact ⟨z1, by simpa [work] using z2⟩

end runs

/-! The quadrilateral of C75 under arbitrary loads, with nodes 0 and 1 moved by `c` in both
directions. -/

theorem supported_valid (c : ℚ) (k : ℕ) (hk : k ≤ 2) :
    ValidBoundaries 4 [(⟨.list [0, 1], fun _ => c⟩ : CondBoundary ℚ)] ∧
    DirichletData 4 k [(⟨.list [0, 1], fun _ => c⟩ : CondBoundary ℚ)]
      (fun r => r < 4 * k ∧ r % 4 < 2) (fun _ => c) := by
  refine ⟨?_, ⟨fun r => ⟨?_, ?_⟩, ?_⟩⟩
  · intro b hb
    simp only [List.mem_singleton] at hb
    subst hb
    refine ⟨?_, ?_⟩
    · intro v hv
      simp [nodesOf] at hv
      omega
    · intro i h; simp at h; subst h; simp
  · rintro ⟨h1, h2⟩
    refine ⟨c, _, List.mem_singleton.2 rfl, r / 4, by omega, r % 4, r % 4, ?_, by omega, rfl⟩
    have : r % 4 = 0 ∨ r % 4 = 1 := by omega
    rcases this with h | h <;> rw [h] <;> rfl
  · rintro ⟨v, b, hb, d, hd, j, node, hj, hx, -⟩
    simp only [List.mem_singleton] at hb
    subst hb
    have hnode : node = 0 ∨ node = 1 := by
      have := List.mem_of_getElem? hj
      simpa [nodesOf] using this
    omega
  · rintro x v ⟨b, hb, d, hd, j, node, hj, hx, hv⟩
    simp only [List.mem_singleton] at hb
    subst hb
    exact hv

/-- The engine of the static problem with the loads `F`, solved exactly. -/
noncomputable def loadedEngine (F : ℕ → ℚ) (c : ℚ) : Engine ℚ where
  grid := { nodesCount := 4, dimension := 2, nodes := exampleNodes2 }
  cls := .staticGlobal
  kind := .staticDisplacement
  ops := { quadrilateralOps with force := fun _ => F }
  boundaries := [⟨.list [0, 1], fun _ => c⟩]
  solve := fun s _ => exactSolution 8 s.system

theorem loaded_held : ∀ p < 4, Held exampleMesh2
    (fun q => q < 4 ∧ (q < 4 * 2 ∧ q % 4 < 2) ∧ 4 + q < 4 * 2 ∧ (4 + q) % 4 < 2) p := by
  have h0 : Held exampleMesh2 (fun q => q < 4 ∧ (q < 4 * 2 ∧ q % 4 < 2) ∧ 4 + q < 4 * 2 ∧ (4 + q) % 4 < 2) 0 :=
    .fixed 0 (by decide)
  have h1 : Held exampleMesh2 (fun q => q < 4 ∧ (q < 4 * 2 ∧ q % 4 < 2) ∧ 4 + q < 4 * 2 ∧ (4 + q) % 4 < 2) 1 :=
    .fixed 1 (by decide)
  have h2 : Held exampleMesh2 (fun q => q < 4 ∧ (q < 4 * 2 ∧ q % 4 < 2) ∧ 4 + q < 4 * 2 ∧ (4 + q) % 4 < 2) 2 :=
    .triangle [0, 1, 2] (by decide) 0 1 2 (by decide) (by decide) (by decide) (by decide) h0 h1
  have h3 : Held exampleMesh2 (fun q => q < 4 ∧ (q < 4 * 2 ∧ q % 4 < 2) ∧ 4 + q < 4 * 2 ∧ (4 + q) % 4 < 2) 3 :=
    .triangle [3, 2, 1] (by decide) 1 2 0 (by decide) (by decide) (by decide) (by decide) h2 h1
  intro p hp
  interval_cases p <;> assumption

/-- The problem is solved for all loads. -/
theorem loaded_result (F : ℕ → ℚ) (c : ℚ) :
    PlaneBody (loadedEngine F c) 4 exampleMesh2 exampleNodes2 2 1 ∧
    ∃ u, StaticResult (loadedEngine F c) (fun r => r < 4 * 2 ∧ r % 4 < 2) (fun _ => c) u := by
  obtain ⟨hb, hd⟩ := supported_valid c 2 le_rfl
  have hreg : Registered .StaticDisplacementProblem .staticGlobal .staticDisplacement :=
    ⟨⟨.static, by decide +kernel, by decide +kernel⟩, Or.inl (by decide +kernel)⟩
  have hu := C74_definite 4 2 (loadedEngine F c).boundaries ⟨(loadedEngine F c).ops.elasticity, F⟩ _ _ hb hd
    (C74_elastic2 exampleMesh2_valid exampleMesh2_nondegenerate 2 1 (by norm_num) (by norm_num) _ loaded_held)
  refine ⟨⟨rfl, rfl, rfl⟩, _, .StaticDisplacementProblem, fun _ A => A, 0, false, 1, _, fun _ _ => 0, [],
    ⟨fun _ => ⟨"", none, []⟩, 0⟩, _, _, rfl,
    hreg, hb, hd, rfl, ?_, rfl, rfl⟩
  intro S guess h1 h2
  change Solves 8 S.system (exactSolution 8 S.system)
  rw [h1]
  exact exactSolution_solves 8 _ hu

/-- Any two loads of the quadrilateral. -/
example (F₁ F₂ : ℕ → ℚ) : ∃ u₁ u₂,
    StaticResult (loadedEngine F₁ 0) (fun r => r < 4 * 2 ∧ r % 4 < 2) (fun _ => 0) u₁ ∧
    StaticResult (loadedEngine F₂ 0) (fun r => r < 4 * 2 ∧ r % 4 < 2) (fun _ => 0) u₂ ∧
    work 8 F₁ u₂ = work 8 F₂ u₁ := by
  obtain ⟨b₁, u₁, h₁⟩ := loaded_result F₁ 0
  obtain ⟨b₂, u₂, h₂⟩ := loaded_result F₂ 0
  exact ⟨u₁, u₂, h₁, h₂, C99_static_reciprocity exampleMesh2_valid exampleMesh2_nondegenerate 2 1 _ _ _ b₁ b₂
    _ _ u₁ u₂ h₁ h₂ fun _ _ _ => ⟨rfl, rfl⟩⟩

/-- Moving the supports by 1 and by 2, under loads that are added up. -/
example (F₁ F₂ : ℕ → ℚ) : ∃ u u₁ u₂,
    StaticResult (loadedEngine (fun r => F₁ r + F₂ r) 3) (fun r => r < 4 * 2 ∧ r % 4 < 2) (fun _ => 3) u ∧
    StaticResult (loadedEngine F₁ 1) (fun r => r < 4 * 2 ∧ r % 4 < 2) (fun _ => 1) u₁ ∧
    StaticResult (loadedEngine F₂ 2) (fun r => r < 4 * 2 ∧ r % 4 < 2) (fun _ => 2) u₂ ∧
    ∀ r < 8, u r = u₁ r + u₂ r := by
  obtain ⟨b, u, h⟩ := loaded_result (fun r => F₁ r + F₂ r) 3
  obtain ⟨b₁, u₁, h₁⟩ := loaded_result F₁ 1
  obtain ⟨b₂, u₂, h₂⟩ := loaded_result F₂ 2
  refine ⟨u, u₁, u₂, h, h₁, h₂, fun r hr => ?_⟩
  have := C99_static_superposition exampleMesh2_valid exampleMesh2_nondegenerate 2 1 (by norm_num)
    (by norm_num) _ loaded_held _ _ _ b b₁ b₂ _ _ _ u u₁ u₂ h h₁ h₂ 1 1
    (fun r _ _ => by simp [loadedEngine]) (fun _ _ _ => by norm_num) r hr
  simpa using this

/-- A stiffer body: the hypotheses of `C99_stiffer` are met by one spring. -/
example : ∃ u u' : ℕ → ℚ, StoresEnergy 1 (fun _ _ => (2 : ℚ)) ∧
    BalancedField 1 (fun _ _ => (2 : ℚ)) (fun _ => False) (fun _ => 0) (fun _ => 6) u ∧
    BalancedField 1 (fun _ _ => (3 : ℚ)) (fun _ => False) (fun _ => 0) (fun _ => 6) u' ∧
    work 1 (fun _ => 6) u' < work 1 (fun _ => 6) u := by
  refine ⟨fun _ => 3, fun _ => 2, ⟨fun _ _ _ _ => rfl, fun x => ?_⟩, ⟨fun _ _ h => h.elim, ?_⟩,
    ⟨fun _ _ h => h.elim, ?_⟩, ?_⟩
  · simp only [quad, Finset.sum_range_one]; nlinarith [mul_self_nonneg (x 0)]
  · intro r hr _; simp [act]; norm_num
  · intro r hr _; simp [act]; norm_num
  · simp [work]; norm_num

/-- The supports of the quadrilateral carry any load. -/
example (F : ℕ → ℚ) : ∃ u, StaticResult (loadedEngine F 0) (fun r => r < 4 * 2 ∧ r % 4 < 2) (fun _ => 0) u ∧
    ∑ p ∈ Finset.range 4, reaction 8 (Plane.constitutive 4 (basicMatrices2 exampleMesh2 exampleNodes2).W 2 1)
      F u p = -∑ p ∈ Finset.range 4, F p := by
  obtain ⟨b, u, h⟩ := loaded_result F 0
  exact ⟨u, h, (C99_static_reactions exampleMesh2_valid exampleMesh2_nondegenerate 2 1 _ _ b _ u h).2.1⟩

/-- The engine of the Poisson problem with the sources `Q`, solved exactly. -/
noncomputable def sourceEngine (Q : ℕ → ℚ) (c : ℚ) : Engine ℚ where
  grid := { nodesCount := 4, dimension := 2, nodes := exampleNodes2 }
  cls := .staticGlobal
  kind := .staticPoisson
  ops := { quadrilateralOps with bodyTemperature := fun _ => Q }
  boundaries := [⟨.list [0, 1], fun _ => c⟩]
  solve := fun s _ => exactSolution 4 s.system

theorem source_joined : ∀ p < 4, Joined 3 exampleMesh2 (fun q => q < 4 ∧ q < 4 * 1 ∧ q % 4 < 2) p := by
  have j0 : Joined 3 exampleMesh2 (fun q => q < 4 ∧ q < 4 * 1 ∧ q % 4 < 2) 0 := .fixed 0 (by decide)
  have j1 : Joined 3 exampleMesh2 (fun q => q < 4 ∧ q < 4 * 1 ∧ q % 4 < 2) 1 := .fixed 1 (by decide)
  have j2 : Joined 3 exampleMesh2 (fun q => q < 4 ∧ q < 4 * 1 ∧ q % 4 < 2) 2 :=
    .element [0, 1, 2] (by decide) 0 2 (by decide) (by decide) j0
  have j3 : Joined 3 exampleMesh2 (fun q => q < 4 ∧ q < 4 * 1 ∧ q % 4 < 2) 3 :=
    .element [3, 2, 1] (by decide) 2 0 (by decide) (by decide) j1
  intro p hp
  interval_cases p <;> assumption

/-- The Poisson problem is solved for all sources, and the heat leaves at the nodes 0 and 1. -/
example (Q : ℕ → ℚ) (c : ℚ) : ∃ T,
    PoissonResult (sourceEngine Q c) (fun r => r < 4 * 1 ∧ r % 4 < 2) (fun _ => c) T ∧
    ∑ p ∈ Finset.range 4, reaction 4 (poissonMatrix 2 (basicMatrices2 exampleMesh2 exampleNodes2).W (1 / 2))
      Q T p = -∑ p ∈ Finset.range 4, Q p := by
  obtain ⟨hb, hd⟩ := supported_valid c 1 (by omega)
  have hreg : Registered .PoissonProblem .staticGlobal .staticPoisson :=
    ⟨⟨.static, by decide +kernel, by decide +kernel⟩, Or.inr (by decide +kernel)⟩
  have hu := C74_definite 4 1 (sourceEngine Q c).boundaries ⟨(sourceEngine Q c).ops.poisson, Q⟩ _ _ hb hd
    (by
      rw [Nat.one_mul]
      exact C74_poisson2 exampleMesh2_valid exampleMesh2_nondegenerate (1 / 2) (by norm_num) _ source_joined)
  have h : ∃ T, PoissonResult (sourceEngine Q c) (fun r => r < 4 * 1 ∧ r % 4 < 2) (fun _ => c) T := by
    refine ⟨_, .PoissonProblem, fun _ A => A, 0, false, 1, _, _, _, rfl, hreg, hb, hd, rfl, ?_, rfl, rfl⟩
    intro S guess h1 h2
    change Solves 4 S.system (exactSolution 4 S.system)
    rw [h1]
    exact exactSolution_solves 4 _ hu
  obtain ⟨T, h⟩ := h
  exact ⟨T, h, (C99_poisson exampleMesh2_valid exampleMesh2_nondegenerate (1 / 2) (by norm_num) _ _ _ _
    ⟨rfl, rfl, rfl⟩ (by intro e he; simp at he; subst he; rfl) _ _ _ T T T h h h).2.2.2⟩

end Conmech
