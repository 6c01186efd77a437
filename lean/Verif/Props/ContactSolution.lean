import Verif.Spec.ContactSolution
import Verif.Lemmas.Coercive
import Verif.Props.Cost
import Verif.Props.Solvable
import Verif.Props.Subgradient
import Mathlib.Analysis.Real.Sqrt
/-!
C89: contact problems with a convex law have exactly one solution, which depends continuously on the
loads.
-/
namespace Conmech
open Spec

section order
variable {K : Type} [Field K] [LinearOrder K] [IsStrictOrderedRing K]

/-- C89: a minimiser of the energy and a convex contact functional satisfies the variational
inequality. -/
theorem C89_variational (n : ℕ) (S : System K) (hA : ∀ r < n, ∀ s < n, S.lhs r s = S.lhs s r)
    (contact : (ℕ → K) → K) (hc : ConvexVec contact) (x : ℕ → K)
    (hx : Minimises (fun y => energy n S y + contact y) x) : VariationalInequality n S contact x := by
  intro y
  set r := ∑ r ∈ Finset.range n, (y r - x r) * (∑ s ∈ Finset.range n, S.lhs r s * x s - S.rhs r) with hr
  set q := quad n S.lhs (fun i => y i - x i) with hq
  have key : ∀ t : K, 0 < t → t ≤ 1 → 0 ≤ r + t * (1 / 2 * q) + (contact y - contact x) := by
    intro t h0 h1
    have h2 := hx fun i => x i + t * (y i - x i)
    simp only at h2
    rw [energy_expand n S hA x fun i => t * (y i - x i)] at h2
    have h3 : quad n S.lhs (fun i => t * (y i - x i)) = t ^ 2 * q := by
      rw [hq]; simp only [quad_eq_bilin]; rw [bilin_smul_left, bilin_smul_right]; ring
    have h4 : ∑ r ∈ Finset.range n, t * (y r - x r) *
        (∑ s ∈ Finset.range n, S.lhs r s * x s - S.rhs r) = t * r := by
      rw [hr, Finset.mul_sum]
      exact Finset.sum_congr rfl fun r _ => by ring
    have h5 := hc y x t (1 - t) h0.le (by linarith) (by ring)
    have h6 : (fun i => t * y i + (1 - t) * x i) = fun i => x i + t * (y i - x i) := by
      funext i; ring
    rw [h6] at h5
    rw [h3, h4] at h2
    have h7 : 0 ≤ t * (r + t * (1 / 2 * q) + (contact y - contact x)) := by
      have : t * (r + t * (1 / 2 * q) + (contact y - contact x)) =
        t * r + 1 / 2 * (t ^ 2 * q) + (t * contact y + (1 - t) * contact x - contact x) := by ring
      rw [this]
      linarith
    exact nonneg_of_mul_nonneg_right h7 h0
  by_contra hneg
  have hneg := not_le.mp hneg
  set e := r + (contact y - contact x) with he
  rcases le_or_gt q 0 with hq0 | hq0
  · have := key 1 one_pos le_rfl
    have : r + (contact y - contact x) < 0 := hneg
    linarith
  · have hpos : 0 < -e / q := div_pos (by linarith) hq0
    have h1 := key (min 1 (-e / q)) (lt_min one_pos hpos) (min_le_left _ _)
    have h2 : min 1 (-e / q) * (1 / 2 * q) ≤ -e / q * (1 / 2 * q) :=
      mul_le_mul_of_nonneg_right (min_le_right _ _) (by linarith)
    have h3 : -e / q * (1 / 2 * q) = -e / 2 := by field_simp
    have h4 : r + min 1 (-e / q) * (1 / 2 * q) + (contact y - contact x) =
        e + min 1 (-e / q) * (1 / 2 * q) := by rw [he]; ring
    rw [h4] at h1
    linarith

/-- C89: the solution depends continuously on the loads: the energy of the difference of two solutions
is at most the work of the difference of the loads. -/
theorem C89_stable (sqrt : K → K) (hs : IsSqrt sqrt) (c : Conditions K) (d : ContactData K)
    (hg : ∀ s ∈ d.surfaces, ∀ sn st, ConvexVec (density c d.variableDimension s.normal sn st d.dt))
    (n : ℕ) (A : ℕ → ℕ → K) (hA : ∀ r < n, ∀ s < n, A r s = A s r) (f₁ f₂ x₁ x₂ : ℕ → K)
    (h₁ : Minimises (fun y => costFunctional sqrt c d n A f₁ ⟨n, y⟩) x₁)
    (h₂ : Minimises (fun y => costFunctional sqrt c d n A f₂ ⟨n, y⟩) x₂) :
    quad n A (fun i => x₁ i - x₂ i) ≤ ∑ r ∈ Finset.range n, (f₁ r - f₂ r) * (x₁ r - x₂ r) := by
  have hcv := C48_contact_convex sqrt hs c d hg n
  have e₁ : (fun y => costFunctional sqrt c d n A f₁ ⟨n, y⟩) = fun y => energy n ⟨A, f₁⟩ y +
      contactCostFunctional sqrt c d ⟨n, y⟩ := funext fun y => C48_energy sqrt c d n ⟨A, f₁⟩ ⟨n, y⟩
  have e₂ : (fun y => costFunctional sqrt c d n A f₂ ⟨n, y⟩) = fun y => energy n ⟨A, f₂⟩ y +
      contactCostFunctional sqrt c d ⟨n, y⟩ := funext fun y => C48_energy sqrt c d n ⟨A, f₂⟩ ⟨n, y⟩
  rw [e₁] at h₁
  rw [e₂] at h₂
  have v₁ := C89_variational n ⟨A, f₁⟩ hA (fun y => contactCostFunctional sqrt c d ⟨n, y⟩) hcv x₁ h₁ x₂
  have v₂ := C89_variational n ⟨A, f₂⟩ hA (fun y => contactCostFunctional sqrt c d ⟨n, y⟩) hcv x₂ h₂ x₁
  have key : ∑ r ∈ Finset.range n, (x₂ r - x₁ r) * (∑ s ∈ Finset.range n, A r s * x₁ s - f₁ r) +
      ∑ r ∈ Finset.range n, (x₁ r - x₂ r) * (∑ s ∈ Finset.range n, A r s * x₂ s - f₂ r) =
      ∑ r ∈ Finset.range n, (f₁ r - f₂ r) * (x₁ r - x₂ r) - quad n A (fun i => x₁ i - x₂ i) := by
    unfold quad
    rw [← Finset.sum_add_distrib, ← Finset.sum_sub_distrib]
    refine Finset.sum_congr rfl fun r _ => ?_
    simp only [mul_sub, Finset.sum_sub_distrib]
    ring
  simp only at v₁ v₂
  linarith

omit [LinearOrder K] [IsStrictOrderedRing K] in
/-- The contact cost only depends on the unknowns. -/
theorem contactCost_congr (sqrt : K → K) (c : Conditions K) (d : ContactData K)
    (hd : 0 < d.variableDimension) (n : ℕ) {x y : ℕ → K} (h : ∀ i < n, x i = y i) :
    contactCostFunctional sqrt c d ⟨n, x⟩ = contactCostFunctional sqrt c d ⟨n, y⟩ := by
  rw [contactCostFunctional_eq, contactCostFunctional_eq]
  congr 1
  refine List.map_congr_left fun s hs => ?_
  unfold surfaceCost
  refine quadrature_congr c hd _ _ _ _ _ _ fun node hnode i hi => ?_
  unfold nodeValue
  split_ifs with hlt
  · refine h _ ?_
    simp only at hlt ⊢
    calc i * (n / d.variableDimension) + node < i * (n / d.variableDimension) +
          n / d.variableDimension := by omega
      _ = (i + 1) * (n / d.variableDimension) := by ring
      _ ≤ d.variableDimension * (n / d.variableDimension) := Nat.mul_le_mul_right _ hi
      _ ≤ n := Nat.mul_div_le n _
  · rfl

end order

theorem isSqrt_real : IsSqrt Real.sqrt := fun x hx => ⟨Real.sqrt_nonneg x, Real.mul_self_sqrt hx⟩

/-- C89: a contact problem with a definite matrix and a convex law has exactly one solution. -/
theorem C89_unique_minimiser (c : Conditions ℝ) (d : ContactData ℝ) (hd : 0 < d.variableDimension)
    (hg : ∀ s ∈ d.surfaces, ∀ sn st, ConvexVec (density c d.variableDimension s.normal sn st d.dt))
    (n : ℕ) (S : System ℝ) (hpos : ∀ x : ℕ → ℝ, (∃ r < n, x r ≠ 0) → 0 < quad n S.lhs x) :
    UniqueMinimiser n fun x => costFunctional Real.sqrt c d n S.lhs S.rhs ⟨n, x⟩ := by
  let ext : (Fin n → ℝ) → ℕ → ℝ := fun x r => if hr : r < n then x ⟨r, hr⟩ else 0
  have hcv := C48_contact_convex Real.sqrt isSqrt_real c d hg n
  have hadd : ∀ (x y : Fin n → ℝ) (a b : ℝ), ext (a • x + b • y) = fun i => a * ext x i + b * ext y i := by
    intro x y a b
    funext i
    simp only [ext]
    split_ifs <;> simp
  have hsmul : ∀ (x : Fin n → ℝ) (a : ℝ), ext (a • x) = fun i => a * ext x i := by
    intro x a
    funext i
    simp only [ext]
    split_ifs <;> simp
  have hcont : ∀ i, Continuous fun x => ext x i := by
    intro i
    simp only [ext]
    split_ifs
    · exact continuous_apply _
    · exact continuous_const
  have hqz : ∀ x, quad n S.lhs x = 0 → ∀ i < n, x i = 0 := by
    intro x h0 i hi
    by_contra hne
    exact (hpos x ⟨i, hi, hne⟩).ne' h0
  have hqn : ∀ x, 0 ≤ quad n S.lhs x := by
    intro x
    by_cases hx : ∃ r < n, x r ≠ 0
    · exact (hpos x hx).le
    · push Not at hx
      refine le_of_eq (Finset.sum_eq_zero fun r hr => ?_).symm
      rw [hx r (Finset.mem_range.mp hr), zero_mul]
  obtain ⟨x, hx⟩ := exists_minimiser (fun x : Fin n → ℝ => 1 / 2 * quad n S.lhs (ext x))
    (fun x => contactCostFunctional Real.sqrt c d ⟨n, ext x⟩ -
      ∑ r ∈ Finset.range n, S.rhs r * ext x r) (by unfold quad; fun_prop)
    (fun t x => by
      simp only [hsmul]
      rw [quad_eq_bilin, bilin_smul_left, bilin_smul_right, quad_eq_bilin]
      ring)
    (fun x hne => by
      refine mul_pos (by norm_num) (hpos _ ?_)
      by_contra hall
      push Not at hall
      refine hne (funext fun i => ?_)
      have := hall i i.2
      simpa [ext] using this)
    ⟨convex_univ, fun x _ y _ a b ha hb hab => by
      simp only [hadd, smul_eq_mul]
      have h1 := hcv (ext x) (ext y) a b ha hb hab
      simp only at h1
      have h2 : ∑ r ∈ Finset.range n, S.rhs r * (a * ext x r + b * ext y r) =
          a * ∑ r ∈ Finset.range n, S.rhs r * ext x r + b * ∑ r ∈ Finset.range n, S.rhs r * ext y r := by
        rw [Finset.mul_sum, Finset.mul_sum, ← Finset.sum_add_distrib]
        exact Finset.sum_congr rfl fun r _ => by ring
      rw [h2]
      linarith⟩
  have hmin : Minimises (fun x => costFunctional Real.sqrt c d n S.lhs S.rhs ⟨n, x⟩) (ext x) := by
    intro y
    have h1 := hx fun i => y i
    have h2 : ∀ i < n, ext (fun i => y i) i = y i := fun i hi => by simp [ext, hi]
    have h3 : quad n S.lhs (ext fun i => y i) = quad n S.lhs y := by
      unfold quad
      refine Finset.sum_congr rfl fun r hr => ?_
      rw [h2 r (Finset.mem_range.mp hr)]
      congr 1
      exact Finset.sum_congr rfl fun s hs => by rw [h2 s (Finset.mem_range.mp hs)]
    have h4 : ∑ r ∈ Finset.range n, S.rhs r * ext (fun i => y i) r =
        ∑ r ∈ Finset.range n, S.rhs r * y r :=
      Finset.sum_congr rfl fun r hr => by rw [h2 r (Finset.mem_range.mp hr)]
    have h5 := contactCost_congr Real.sqrt c d hd n h2
    simp only [C48_energy, energy]
    rw [h3, h4, h5] at h1
    linarith
  exact ⟨ext x, hmin, fun y hy => C48_unique Real.sqrt isSqrt_real c d hg n n S hqn hqz y (ext x) hy
    hmin⟩

/-- The system of a statement is positive definite if its left hand side is definite on the fields that
vanish on the constrained degrees of freedom. -/
theorem update_positive (kind : StatementKind) (ops : Operators ℝ) (bs : List (CondBoundary ℝ))
    (var : Variables ℝ) (S : System ℝ) (dim : ℕ) (hdim : kind.dimensionIn ops.dimension = dim)
    (D : ℕ → Prop) [DecidablePred D] (g : ℕ → ℝ) (hv : ValidBoundaries ops.nodesCount bs)
    (hd : DirichletData ops.nodesCount dim bs D g)
    (hnn : ∀ lhs, updateLhs ops var kind = .ok lhs → Dissipates (dim * ops.nodesCount) lhs)
    (hdef : ∀ lhs, updateLhs ops var kind = .ok lhs → DefiniteOn (dim * ops.nodesCount) D lhs)
    (h : kind.update ops bs var = .ok S) (x : ℕ → ℝ) (hx : ∃ r < dim * ops.nodesCount, x r ≠ 0) :
    0 < quad (dim * ops.nodesCount) S.lhs x := by
  obtain ⟨lhs, rhs, h1, -, h3⟩ := update_eliminated _ _ _ _ _ h
  rw [hdim] at h3
  rw [h3]
  refine C13_positive _ _ _ _ D g hv hd (fun y hy hne => ?_) x hx
  refine lt_of_le_of_ne ((hnn lhs h1).nonneg y) fun h0 => ?_
  obtain ⟨r, hr, hyr⟩ := hne
  exact hyr (hdef lhs h1 y hy h0.symm r hr)

section problems
variable {N : ℕ} {elements : List (List ℕ)} {nodes : ℕ → ℕ → ℝ}

/-- C89: elasticity on a triangular mesh with a convex contact law. Every step of a dynamic problem has
exactly one solution; static and quasistatic problems have if the fixed nodes hold all nodes. -/
theorem C89_elasticity2 (hv : ValidElements 2 N elements) (hn : Nondegenerate2 elements nodes)
    (hall : ∀ p < N, ∃ e ∈ elements, p ∈ e) (density mu lam theta zeta : ℝ) (hdensity : 0 < density)
    (hmu : 0 < mu) (hlam : 0 ≤ lam) (htheta : 0 ≤ theta) (hzeta : 0 ≤ zeta)
    (ops : Operators ℝ) (hN : ops.nodesCount = N) (hdim : ops.dimension = 2)
    (hacc : ops.acceleration = Plane.acceleration N (basicMatrices2 elements nodes).U density)
    (hel : ops.elasticity = Plane.constitutive N (basicMatrices2 elements nodes).W mu lam)
    (hvis : ops.viscosity = Plane.constitutive N (basicMatrices2 elements nodes).W theta zeta)
    (bs : List (CondBoundary ℝ)) (D : ℕ → Prop) [DecidablePred D] (g : ℕ → ℝ)
    (hb : ValidBoundaries N bs) (hd : DirichletData N 2 bs D g)
    (var : Variables ℝ) (dt : ℝ) (hdt : 0 < dt) (hvar : var.timeStep = some dt) (S : System ℝ)
    (c : Conditions ℝ) (d : ContactData ℝ) (hd2 : d.variableDimension = 2)
    (hg : ∀ s ∈ d.surfaces, ∀ sn st, ConvexVec (Spec.density c d.variableDimension s.normal sn st d.dt)) :
    let cost := fun x => costFunctional Real.sqrt c d (2 * N) S.lhs S.rhs ⟨2 * N, x⟩
    (StatementKind.dynamicVelocity.update ops bs var = .ok S → UniqueMinimiser (2 * N) cost) ∧
    ((∀ p < N, Held elements (fun q => q < N ∧ D q ∧ D (N + q)) p) →
      (StatementKind.staticDisplacement.update ops bs var = .ok S → UniqueMinimiser (2 * N) cost) ∧
      (StatementKind.quasistaticVelocity.update ops bs var = .ok S → UniqueMinimiser (2 * N) cost)) := by
  subst hN
  obtain ⟨o1, o2, o3, -, -⟩ := C71_operators2 hv hn density mu lam theta zeta 1 hdensity.le hmu.le hlam
    htheta hzeta
  rw [← hacc] at o1
  rw [← hel] at o2
  rw [← hvis] at o3
  have d1 : Dissipates (2 * ops.nodesCount) ops.acceleration := ⟨o1.nonneg⟩
  have d2 : Dissipates (2 * ops.nodesCount) ops.elasticity := ⟨o2.nonneg⟩
  have hd' : 0 < 1 / dt := by positivity
  intro cost
  have key := fun h => C89_unique_minimiser c d (by omega) hg (2 * ops.nodesCount) S h
  refine ⟨fun h => key ?_, fun hh => ⟨fun h => key ?_, fun h => key ?_⟩⟩
  · refine update_positive .dynamicVelocity ops bs var S 2 rfl D g hb hd (fun lhs hl => ?_)
      (fun lhs hl => ?_) h
    · change dynamicLhs ops var = .ok lhs at hl
      simp only [dynamicLhs, hvar, required, bind, Except.bind, pure, Except.pure,
        Except.ok.injEq] at hl
      have e : lhs = fun r s => 1 * (1 * ops.viscosity r s + 1 / dt * ops.acceleration r s) +
          dt * ops.elasticity r s := by rw [← hl]; funext r s; ring
      rw [e]
      exact dissipates_add (dissipates_add o3 d1 1 _ one_pos hd') d2 1 dt one_pos hdt
    · refine lhs_definite ops var D dt hdt hvar .dynamicVelocity _ ⟨o3, d1, d2, ?_⟩ lhs hl
      rw [hacc]
      exact Or.inr (Or.inl (C74_mass2 hv hn density hdensity hall D).1)
  · refine update_positive .staticDisplacement ops bs var S 2 hdim D g hb hd (fun lhs hl => ?_)
      (fun lhs hl => ?_) h
    · obtain rfl : ops.elasticity = lhs := Except.ok.inj hl
      exact d2
    · refine lhs_definite ops var D dt hdt hvar .staticDisplacement _ ?_ lhs hl
      change DefiniteOn _ D ops.elasticity
      rw [hel]
      exact C74_elastic2 hv hn mu lam hmu hlam D hh
  · refine update_positive .quasistaticVelocity ops bs var S 2 rfl D g hb hd (fun lhs hl => ?_)
      (fun lhs hl => ?_) h
    · change quasistaticLhs ops var = .ok lhs at hl
      simp only [quasistaticLhs, hvar, required, bind, Except.bind, pure, Except.pure,
        Except.ok.injEq] at hl
      have e : lhs = fun r s => 1 * ops.viscosity r s + dt * ops.elasticity r s := by
        rw [← hl]; funext r s; ring
      rw [e]
      exact dissipates_add o3 d2 1 dt one_pos hdt
    · refine lhs_definite ops var D dt hdt hvar .quasistaticVelocity _ ⟨o3, d2, ?_⟩ lhs hl
      rw [hel]
      exact Or.inr (C74_elastic2 hv hn mu lam hmu hlam D hh)

/-- C89: in particular with the slope law, whatever the contact surfaces are. -/
theorem C89_slope (n : ℕ) (S : System ℝ) (hpos : ∀ x : ℕ → ℝ, (∃ r < n, x r ≠ 0) → 0 < quad n S.lhs x)
    (slope : ℝ) (hslope : 0 ≤ slope) (d : ContactData ℝ) (hd : 0 < d.variableDimension) :
    UniqueMinimiser n fun x => costFunctional Real.sqrt
      (makeConditions (.function (slopePotential slope)) unitBound zeroTangential unitBound) d n S.lhs S.rhs
      ⟨n, x⟩ :=
  C89_unique_minimiser _ d hd (fun _ _ sn _ =>
    C48_density_convex _ _ _ _ _ _ (C47_convex slope sn d.dt hslope)) n S hpos

end problems

-- Two nodes on springs with a contact edge between them, for all loads.
example (load : ℕ → ℝ) : UniqueMinimiser 4 fun x => costFunctional Real.sqrt
    (makeConditions (.function (slopePotential 10)) unitBound zeroTangential unitBound) (segmentData 2) 4
    (fun r s => if r = s then 2 else 0) load ⟨4, x⟩ := by
  refine C89_slope 4 ⟨fun r s => if r = s then 2 else 0, load⟩ (fun x hx => ?_) 10 (by norm_num)
    (segmentData 2) (by simp [segmentData])
  obtain ⟨r, hr, hne⟩ := hx
  have h1 : quad 4 (fun r s => if r = s then (2 : ℝ) else 0) x = ∑ r ∈ Finset.range 4, 2 * (x r * x r) := by
    unfold quad
    refine Finset.sum_congr rfl fun r hr => ?_
    simp only [ite_mul, zero_mul]
    rw [Finset.sum_ite_eq, if_pos hr]
    ring
  change 0 < quad 4 (fun r s => if r = s then (2 : ℝ) else 0) x
  rw [h1]
  refine Finset.sum_pos' (fun r _ => mul_nonneg (by norm_num) (mul_self_nonneg _))
    ⟨r, Finset.mem_range.mpr hr, ?_⟩
  have := mul_self_pos.mpr hne
  linarith

end Conmech
