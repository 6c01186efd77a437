import Verif.Props.Convergence
import Verif.Props.Reactions
import Verif.Props.Solvable
import Verif.Lemmas.MotionExists
import Mathlib.Analysis.Convex.Deriv
/-!
C105, continued: motions exist and are unique, and which solvers meet the condition of the theorems on
time steps.
-/
namespace Conmech
open Spec

/-! ### Motions -/

section
variable {n : ℕ} {D : ℕ → Prop} {M A B : ℕ → ℕ → ℝ} {J : (ℕ → ℝ) → ℝ} {f : ℝ → ℕ → ℝ}

/-- Without contact a state is balanced if and only if the equation of motion holds outside of the
supports. -/
theorem C105_free (f u v a : ℕ → ℝ) (hv : Still n D v) :
    Balanced n D M A B (fun _ => 0) f u v a ↔
      ∀ r < n, ¬ D r → act n M a r + act n A v r + act n B u r = f r := by
  classical
  constructor
  · intro h r hr hD
    set p := act n M a r + act n A v r + act n B u r - f r with hp
    have key : ∀ t : ℝ, 0 ≤ t * p := by
      intro t
      have h1 := h (fun i => v i + if i = r then t else 0) fun s hs hDs => by
        beta_reduce
        rw [hv s hs hDs, if_neg (fun hsr : s = r => hD (hsr ▸ hDs)), add_zero]
      simpa [Finset.sum_ite_eq', hr, hp] using h1
    have h1 := key 1
    have h2 := key (-1)
    linarith
  · intro h y hy
    refine le_of_eq ?_
    rw [sub_self, add_zero]
    refine (Finset.sum_eq_zero fun r hr => ?_).symm
    have hr := Finset.mem_range.1 hr
    by_cases hD : D r
    · rw [hy r hr hD, hv r hr hD, sub_zero, zero_mul]
    · rw [h r hr hD, sub_self, mul_zero]

/-- Two motions of the same body under the same loads never get further apart. -/
theorem C105_contraction (hM : StoresEnergy n M) (hA : Dissipates n A) (hB : StoresEnergy n B)
    {t₀ t₁ : ℝ} {u v a u' v' a' : ℝ → ℕ → ℝ} (h : Motion n D M A B J f t₀ t₁ u v a)
    (h' : Motion n D M A B J f t₀ t₁ u' v' a') :
    AntitoneOn (fun t => energyDistance n M B (u t) (v t) (u' t) (v' t)) (Set.Icc t₀ t₁) := by
  have dform : ∀ (Q : ℕ → ℕ → ℝ), (∀ r < n, ∀ s < n, Q r s = Q s r) → ∀ (x y : ℝ → ℕ → ℝ),
      ∀ t ∈ Set.Icc t₀ t₁, (∀ r < n, HasDerivWithinAt (fun s => x s r) (y t r) (Set.Icc t₀ t₁) t) →
      HasDerivWithinAt (fun t => quad n Q (x t)) (2 * bilin n Q (y t) (x t)) (Set.Icc t₀ t₁) t := by
    intro Q hQ x y t _ hx
    have h1 : HasDerivWithinAt (fun t => bilin n Q (x t) (x t))
        (bilin n Q (y t) (x t) + bilin n Q (x t) (y t)) (Set.Icc t₀ t₁) t := by
      unfold bilin
      rw [← Finset.sum_add_distrib]
      refine HasDerivWithinAt.fun_sum fun r hr => ?_
      refine (hx r (Finset.mem_range.1 hr)).mul ?_
      exact HasDerivWithinAt.fun_sum fun s hs => (hx s (Finset.mem_range.1 hs)).const_mul _
    rw [bilin_symm n Q hQ (x t) (y t), ← two_mul] at h1
    simpa only [quad_eq_bilin] using h1
  set E : ℝ → ℝ := fun t => quad n B (fun i => u t i - u' t i) + quad n M (fun i => v t i - v' t i)
  have hE : ∀ t ∈ Set.Icc t₀ t₁, HasDerivWithinAt E
      (2 * bilin n B (fun i => v t i - v' t i) (fun i => u t i - u' t i) +
        2 * bilin n M (fun i => a t i - a' t i) (fun i => v t i - v' t i)) (Set.Icc t₀ t₁) t := by
    intro t ht
    refine (dform B hB.symm (fun t i => u t i - u' t i) (fun t i => v t i - v' t i) t ht fun r hr => ?_).add
      (dform M hM.symm (fun t i => v t i - v' t i) (fun t i => a t i - a' t i) t ht fun r hr => ?_)
    · exact (h.velocity t ht r hr).sub (h'.velocity t ht r hr)
    · exact (h.acceleration t ht r hr).sub (h'.acceleration t ht r hr)
  have hanti : AntitoneOn E (Set.Icc t₀ t₁) := by
    refine antitoneOn_of_deriv_nonpos (convex_Icc _ _) (fun s hs => (hE s hs).continuousWithinAt)
      (fun s hs => ((hE s (interior_subset hs)).mono interior_subset).differentiableWithinAt) ?_
    intro s hs
    rw [interior_Icc] at hs
    have hs' : s ∈ Set.Icc t₀ t₁ := ⟨hs.1.le, hs.2.le⟩
    rw [((hE s hs').hasDerivAt (Icc_mem_nhds hs.1 hs.2)).deriv]
    have h1 := balanced_difference (h.held s hs') (h'.held s hs') (h.balanced s hs') (h'.balanced s hs')
    have h2 := hA.nonneg fun i => v s i - v' s i
    rw [bilin_symm n M hM.symm (fun i => v s i - v' s i)] at h1
    simp only [sub_self, mul_zero, Finset.sum_const_zero] at h1
    linarith
  exact fun s hs t ht hst => Real.sqrt_le_sqrt (hanti hs ht hst)

theorem quad_zero_vector {n : ℕ} {Q : ℕ → ℕ → ℝ} {x : ℕ → ℝ} (h : ∀ r < n, x r = 0) :
    quad n Q x = 0 := by
  unfold quad
  exact Finset.sum_eq_zero fun r hr => by rw [h r (Finset.mem_range.1 hr), zero_mul]

/-- If the mass matrix is definite, there is only one motion from a given state. -/
theorem C105_unique (hM : StoresEnergy n M) (hA : Dissipates n A) (hB : StoresEnergy n B)
    (hdef : DefiniteOn n D M) {t₀ t₁ : ℝ} {u v a u' v' a' : ℝ → ℕ → ℝ}
    (h : Motion n D M A B J f t₀ t₁ u v a) (h' : Motion n D M A B J f t₀ t₁ u' v' a')
    (hu : ∀ r < n, u t₀ r = u' t₀ r) (hv : ∀ r < n, v t₀ r = v' t₀ r) :
    ∀ t ∈ Set.Icc t₀ t₁, ∀ r < n, u t r = u' t r ∧ v t r = v' t r := by
  have hv' : ∀ t ∈ Set.Icc t₀ t₁, ∀ r < n, v t r = v' t r := by
    intro t ht r hr
    have h1 := C105_contraction hM hA hB h h' (Set.left_mem_Icc.2 (ht.1.trans ht.2)) ht ht.1
    have h0 : energyDistance n M B (u t₀) (v t₀) (u' t₀) (v' t₀) = 0 := by
      unfold energyDistance
      rw [quad_zero_vector fun r hr => by rw [hu r hr, sub_self],
        quad_zero_vector fun r hr => by rw [hv r hr, sub_self], add_zero, Real.sqrt_zero]
    simp only [h0] at h1
    unfold energyDistance at h1
    have h2 := Real.sqrt_eq_zero'.1 (le_antisymm h1 (Real.sqrt_nonneg _))
    have h3 := hB.nonneg fun i => u t i - u' t i
    have h4 := hM.nonneg fun i => v t i - v' t i
    have h5 := hdef (fun i => v t i - v' t i) (fun s hs hD => by
      beta_reduce
      rw [h.held t ht s hs hD, h'.held t ht s hs hD, sub_zero]) (by linarith) r hr
    exact sub_eq_zero.1 h5
  intro t ht r hr
  refine ⟨?_, hv' t ht r hr⟩
  have hd : ∀ s ∈ Set.Icc t₀ t₁,
      HasDerivWithinAt (fun s => u s r - u' s r) 0 (Set.Icc t₀ t₁) s := fun s hs => by
    have := (h.velocity s hs r hr).sub (h'.velocity s hs r hr)
    rw [hv' s hs r hr, sub_self] at this
    exact this
  have h3 : ‖(u t r - u' t r) - (u t₀ r - u' t₀ r)‖ ≤ 0 * ‖t - t₀‖ :=
    (convex_Icc t₀ t₁).norm_image_sub_le_of_norm_hasDerivWithin_le (f := fun s => u s r - u' s r)
      hd (fun s _ => by simp) (Set.left_mem_Icc.2 (ht.1.trans ht.2)) ht
  rw [hu r hr, sub_self, sub_zero, zero_mul] at h3
  exact sub_eq_zero.1 (norm_le_zero_iff.1 h3)

/-- Motions exist if the mass matrix is definite, the loads change at a bounded rate and the contact
forces depend Lipschitz continuously on the velocity. -/
theorem C105_exists (hM : StoresEnergy n M) (hdef : DefiniteOn n D M) (A B : ℕ → ℕ → ℝ)
    {g : (ℕ → ℝ) → ℕ → ℝ} {k : ℝ} (hk : 0 ≤ k) (hg : SmoothContact n J g k) (T l : ℝ) (hT : 0 ≤ T)
    (hl : 0 ≤ l)
    (hf : ∀ s ∈ Set.Icc 0 T, ∀ t ∈ Set.Icc 0 T, ∀ r < n, |f s r - f t r| ≤ l * |s - t|)
    (u₀ v₀ : ℕ → ℝ) (hv₀ : Still n D v₀) :
    ∃ u v a : ℝ → ℕ → ℝ, Motion n D M A B J f 0 T u v a ∧ (∀ r < n, u 0 r = u₀ r ∧ v 0 r = v₀ r) ∧
      ∃ cv ca cf, Moderate n D M B f 0 T v a cv ca cf :=
  motion_exists hM hdef A B hk hg f T l hT hl hf u₀ v₀ hv₀

end

/-! ### Solvers -/

section
variable {V : Type}

/-- A field of least energy satisfies the variational inequality. -/
theorem held_variational (n : ℕ) (D : ℕ → Prop) (S : System ℝ)
    (hA : ∀ r < n, ∀ s < n, S.lhs r s = S.lhs s r) (J : (ℕ → ℝ) → ℝ) (hJ : ConvexVec J) (x : ℕ → ℝ)
    (hx : MinimisesWith n D S J x) (y : ℕ → ℝ) (hy : Still n D y) :
    0 ≤ ∑ r ∈ Finset.range n, (y r - x r) * (∑ s ∈ Finset.range n, S.lhs r s * x s - S.rhs r) +
      (J y - J x) := by
  set r := ∑ r ∈ Finset.range n, (y r - x r) * (∑ s ∈ Finset.range n, S.lhs r s * x s - S.rhs r) with hr
  set q := quad n S.lhs (fun i => y i - x i) with hq
  have key : ∀ t : ℝ, 0 < t → t ≤ 1 → 0 ≤ r + t * (1 / 2 * q) + (J y - J x) := by
    intro t h0 h1
    have h2 := hx.2 (fun i => x i + t * (y i - x i)) fun s hs hD => by
      rw [hx.1 s hs hD, hy s hs hD]; ring
    rw [energy_expand n S hA x fun i => t * (y i - x i)] at h2
    have h3 : quad n S.lhs (fun i => t * (y i - x i)) = t ^ 2 * q := by
      rw [hq]; simp only [quad_eq_bilin]; rw [bilin_smul_left, bilin_smul_right]; ring
    have h4 : ∑ r ∈ Finset.range n, t * (y r - x r) *
        (∑ s ∈ Finset.range n, S.lhs r s * x s - S.rhs r) = t * r := by
      rw [hr, Finset.mul_sum]
      exact Finset.sum_congr rfl fun r _ => by ring
    have h5 := hJ y x t (1 - t) h0.le (by linarith) (by ring)
    have h6 : (fun i => t * y i + (1 - t) * x i) = fun i => x i + t * (y i - x i) := by
      funext i; ring
    rw [h6] at h5
    rw [h3, h4] at h2
    have h7 : 0 ≤ t * (r + t * (1 / 2 * q) + (J y - J x)) := by
      have : t * (r + t * (1 / 2 * q) + (J y - J x)) =
        t * r + 1 / 2 * (t ^ 2 * q) + (t * J y + (1 - t) * J x - J x) := by ring
      rw [this]
      linarith
    exact nonneg_of_mul_nonneg_right h7 h0
  by_contra hneg
  have hneg := not_le.mp hneg
  set e := r + (J y - J x) with he
  rcases le_or_gt q 0 with hq0 | hq0
  · have := key 1 one_pos le_rfl
    have : r + (J y - J x) < 0 := hneg
    linarith
  · have hpos : 0 < -e / q := div_pos (by linarith) hq0
    have h1 := key (min 1 (-e / q)) (lt_min one_pos hpos) (min_le_left _ _)
    have h2 : min 1 (-e / q) * (1 / 2 * q) ≤ -e / q * (1 / 2 * q) :=
      mul_le_mul_of_nonneg_right (min_le_right _ _) (by linarith)
    have h3 : -e / q * (1 / 2 * q) = -e / 2 := by field_simp
    have h4 : r + min 1 (-e / q) * (1 / 2 * q) + (J y - J x) =
        e + min 1 (-e / q) * (1 / 2 * q) := by rw [he]; ring
    rw [h4] at h1
    linarith

/-- C105: problems without contact. If every solution solves the system, the condition of the theorems on
time steps is met. -/
theorem C105_exact (e : Engine ℝ) (D : ℕ → Prop) [DecidablePred D] (dim : ℕ)
    (hdim : e.kind.dimensionIn e.ops.dimension = dim)
    (hv : ValidBoundaries e.ops.nodesCount e.boundaries)
    (hd : DirichletData e.ops.nodesCount dim e.boundaries D fun _ => 0) (dt : ℝ)
    (hs : ∀ (S : SolverState ℝ) (guess : ℕ → ℝ) (var : Variables ℝ), var.timeStep = some dt →
      e.kind.update e.ops e.boundaries var = .ok S.system →
      Solves (dim * e.ops.nodesCount) S.system (e.solve S guess)) :
    ContactSolve e (dim * e.ops.nodesCount) D dt fun _ => 0 := by
  intro S guess var hdt hu
  have h1 := hs S guess var hdt hu
  refine ⟨?_, fun y _ => le_of_eq ?_⟩
  · obtain ⟨lhs, rhs, -, -, h2⟩ := update_eliminated _ _ _ _ _ hu
    rw [hdim] at h2
    rw [h2] at h1
    exact ((C12_elimination_equivalent e.ops.nodesCount dim e.boundaries _ D (fun _ => 0) hv hd _).1 h1).1
  · rw [sub_self, add_zero]
    refine (Finset.sum_eq_zero fun r hr => ?_).symm
    rw [h1 r (Finset.mem_range.1 hr), sub_self, mul_zero]

/-- C105: problems with contact. If every solution minimises the energy of the system and a convex cost of
contact among the fields that vanish on the supports, the condition is met. -/
theorem C105_contact (e : Engine ℝ) (D : ℕ → Prop) [DecidablePred D] (dim : ℕ)
    (hdim : e.kind.dimensionIn e.ops.dimension = dim)
    (hv : ValidBoundaries e.ops.nodesCount e.boundaries)
    (hd : DirichletData e.ops.nodesCount dim e.boundaries D fun _ => 0) (dt : ℝ)
    (hsym : ∀ var lhs, var.timeStep = some dt → updateLhs e.ops var e.kind = .ok lhs →
      ∀ r < dim * e.ops.nodesCount, ∀ s < dim * e.ops.nodesCount, lhs r s = lhs s r)
    (J : (ℕ → ℝ) → ℝ) (hJ : ConvexVec J)
    (hs : ∀ (S : SolverState ℝ) (guess : ℕ → ℝ) (var : Variables ℝ), var.timeStep = some dt →
      e.kind.update e.ops e.boundaries var = .ok S.system →
      MinimisesWith (dim * e.ops.nodesCount) D S.system J (e.solve S guess)) :
    ContactSolve e (dim * e.ops.nodesCount) D dt J := by
  intro S guess var hdt hu
  have h1 := hs S guess var hdt hu
  obtain ⟨lhs, rhs, h2, -, h3⟩ := update_eliminated _ _ _ _ _ hu
  refine ⟨h1.1, held_variational _ D _ ?_ J hJ _ h1⟩
  rw [h3, hdim]
  exact C13_symmetric e.ops.nodesCount dim e.boundaries _ D (fun _ => 0) hv hd (hsym var lhs hdt h2)

/-- The cost of a law that depends on the velocity only is the same for all states of the run. -/
theorem contactCost_same (j : ℝ → ℝ → ℝ → ℝ) (hj : ∀ a b c b' c', j a b c = j a b' c')
    (d d' : ContactData ℝ) (N : ℕ) (h0 : 0 < d.variableDimension)
    (h1 : d'.variableDimension = d.variableDimension) (h2 : d'.nodes = d.nodes)
    (h3 : d'.surfaces = d.surfaces) (hn : ∀ s ∈ d.surfaces, ∀ node ∈ s.edge, node < N) (y : ℕ → ℝ) :
    contactCostFunctional Real.sqrt (frictionless j) d' ⟨d.variableDimension * N, y⟩ =
      contactCostFunctional Real.sqrt (frictionless j) d ⟨d.variableDimension * N, y⟩ := by
  rw [contactCostFunctional_eq, contactCostFunctional_eq, h3]
  congr 1
  refine List.map_congr_left fun s hs => ?_
  unfold surfaceCost
  rw [h1, h2]
  have e1 : density (frictionless j) d.variableDimension s.normal (staticN d' s) (staticT d' s) d'.dt =
      density (frictionless j) d.variableDimension s.normal (staticN d s) (staticT d s) d.dt := by
    funext x
    rw [density_frictionless, density_frictionless]
    exact hj _ _ _ _ _
  rw [e1]
  refine quadrature_congr _ h0 _ _ _ _ _ _ fun node hnode i _ => ?_
  rw [nodeValue_known h0 _ _ (hn s hs node hnode), nodeValue_known h0 _ _ (hn s hs node hnode)]

/-- A field of least energy, with a contact law that depends on the velocity only, satisfies the variational
inequality of the eliminated system. -/
theorem held_contact (N : ℕ) (bs : List (CondBoundary ℝ)) (D : ℕ → Prop) [DecidablePred D]
    (d : ContactData ℝ) (h0 : 0 < d.variableDimension) (hv : ValidBoundaries N bs)
    (hd : DirichletData N d.variableDimension bs D fun _ => 0) (lhs : ℕ → ℕ → ℝ) (rhs : ℕ → ℝ)
    (hA : ∀ r < d.variableDimension * N, ∀ s < d.variableDimension * N, lhs r s = lhs s r)
    (j : ℝ → ℝ → ℝ → ℝ) (hj : ∀ a b c b' c', j a b c = j a b' c')
    (hconv : ∀ b c, Convex1 fun x => j x b c) (hn : ∀ s ∈ d.surfaces, ∀ node ∈ s.edge, node < N)
    (d' : ContactData ℝ) (d1 : d'.variableDimension = d.variableDimension) (d2 : d'.nodes = d.nodes)
    (d3 : d'.surfaces = d.surfaces) (x : ℕ → ℝ)
    (hm : HeldMinimiser (d.variableDimension * N) D (fun _ => 0) (fun y => costFunctional Real.sqrt
      (frictionless j) d' (d.variableDimension * N) lhs rhs ⟨d.variableDimension * N, y⟩) x) :
    Still (d.variableDimension * N) D x ∧ ∀ y, Still (d.variableDimension * N) D y →
      0 ≤ ∑ r ∈ Finset.range (d.variableDimension * N), (y r - x r) *
        (∑ s ∈ Finset.range (d.variableDimension * N),
          (applyDirichlet N d.variableDimension bs ⟨lhs, rhs⟩).lhs r s * x s -
            (applyDirichlet N d.variableDimension bs ⟨lhs, rhs⟩).rhs r) +
        (contactCostFunctional Real.sqrt (frictionless j) d ⟨d.variableDimension * N, y⟩ -
          contactCostFunctional Real.sqrt (frictionless j) d ⟨d.variableDimension * N, x⟩) := by
  have hm' : MinimisesWith (d.variableDimension * N) D ⟨lhs, rhs⟩
      (fun y => contactCostFunctional Real.sqrt (frictionless j) d
        ⟨d.variableDimension * N, y⟩) (x) := by
    refine ⟨hm.1, fun y hy => ?_⟩
    have := hm.2 y hy
    have hc : ∀ y, costFunctional Real.sqrt (frictionless j) d'
        (d.variableDimension * N) lhs rhs ⟨d.variableDimension * N, y⟩ =
        energy (d.variableDimension * N) ⟨lhs, rhs⟩ y +
          contactCostFunctional Real.sqrt (frictionless j) d
            ⟨d.variableDimension * N, y⟩ := fun y => by
      rw [← contactCost_same j hj d d' _ h0 d1 d2 d3 hn]
      exact C48_energy Real.sqrt _ d' _ ⟨lhs, rhs⟩ ⟨_, y⟩
    simp only [hc] at this
    exact this
  have hJ : ConvexVec fun y => contactCostFunctional Real.sqrt (frictionless j) d
      ⟨d.variableDimension * N, y⟩ :=
    C48_contact_convex Real.sqrt isSqrt_real _ d (fun s _ sn st =>
      C48_density_convex j _ _ _ _ _ (hconv sn d.dt)) _
  refine ⟨hm.1, fun y hy => ?_⟩
  have hvi := held_variational _ D ⟨lhs, rhs⟩ hA _ hJ _ hm' y hy
  have hz : Still (d.variableDimension * N) D fun i => y i - x i :=
    fun r hr hDr => by
      beta_reduce
      rw [hy r hr hDr, hm.1 r hr hDr, sub_zero]
  rw [residual_elimination _ _ _ _ D hv hd _ (fun i => y i - x i) hm.1 hz]
  exact hvi

/-- C105: the solvers of the code that minimise the cost functional. No contact surface has a node on a
support, and the law depends on the velocity only. -/
theorem C105_law (e : Engine ℝ) (D : ℕ → Prop) [DecidablePred D] (d : ContactData ℝ)
    (h0 : 0 < d.variableDimension)
    (hdim : e.kind.dimensionIn e.ops.dimension = d.variableDimension)
    (hv : ValidBoundaries e.ops.nodesCount e.boundaries)
    (hd : DirichletData e.ops.nodesCount d.variableDimension e.boundaries D fun _ => 0) (dt : ℝ)
    (hsym : ∀ var lhs, var.timeStep = some dt → updateLhs e.ops var e.kind = .ok lhs →
      ∀ r < d.variableDimension * e.ops.nodesCount, ∀ s < d.variableDimension * e.ops.nodesCount,
        lhs r s = lhs s r)
    (j : ℝ → ℝ → ℝ → ℝ) (hj : ∀ a b c b' c', j a b c = j a b' c')
    (hconv : ∀ b c, Convex1 fun x => j x b c)
    (hn : ∀ s ∈ d.surfaces, ∀ node ∈ s.edge, node < e.ops.nodesCount)
    (hap : ContactApart e.ops.nodesCount D d)
    (data : SolverState ℝ → ContactData ℝ)
    (hdata : ∀ S, (data S).variableDimension = d.variableDimension ∧ (data S).nodes = d.nodes ∧
      (data S).surfaces = d.surfaces)
    (impl : SolverState ℝ → (ℕ → ℝ) → ℕ → ℝ)
    (hsolve : ∀ S guess, e.solve S guess =
      solverSolve (impl S) e.ops.nodesCount d.variableDimension e.boundaries guess)
    (hs : ∀ (S : SolverState ℝ) (guess : ℕ → ℝ) (var : Variables ℝ), var.timeStep = some dt →
      e.kind.update e.ops e.boundaries var = .ok S.system →
      Minimises (fun y => costFunctional Real.sqrt (frictionless j) (data S)
        (d.variableDimension * e.ops.nodesCount) S.system.lhs S.system.rhs
        ⟨d.variableDimension * e.ops.nodesCount, y⟩) (impl S guess)) :
    ContactSolve e (d.variableDimension * e.ops.nodesCount) D dt fun y =>
      contactCostFunctional Real.sqrt (frictionless j) d ⟨d.variableDimension * e.ops.nodesCount, y⟩ := by
  intro S guess var hdt hu
  have h1 := hs S guess var hdt hu
  obtain ⟨lhs, rhs, h2, -, h3⟩ := update_eliminated _ _ _ _ _ hu
  rw [hdim] at h3
  have hA := hsym var lhs hdt h2
  obtain ⟨d1, d2, d3⟩ := hdata S
  have hap' : ContactApart e.ops.nodesCount D (data S) := by
    intro s hmem node hnode i hi
    rw [d3] at hmem
    rw [d1] at hi
    exact hap s hmem node hnode i hi
  rw [h3] at h1
  have hm := (C101_held_partial e.ops.nodesCount d.variableDimension e.boundaries ⟨lhs, rhs⟩ D
    (fun _ => 0) hv hd h0 hA Real.sqrt _ (data S) d1 hap' (impl S) guess h1).1
  rw [← hsolve] at hm
  have hc := held_contact e.ops.nodesCount e.boundaries D d h0 hv hd lhs rhs hA j hj hconv hn (data S) d1 d2 d3
    _ hm
  rw [h3]
  exact hc

/-! ### The slope law -/

/-- A function of the first `n` entries that changes at a bounded rate. -/
def BoundedRate (n : ℕ) (φ : (ℕ → ℝ) → ℝ) : Prop :=
  ∃ k, 0 ≤ k ∧ ∀ v w, |φ v - φ w| ≤ k * ∑ s ∈ Finset.range n, |v s - w s|

theorem boundedRate_entry {n s : ℕ} (h : s < n) : BoundedRate n fun v => v s :=
  ⟨1, zero_le_one, fun v w => by
    rw [one_mul]
    exact Finset.single_le_sum (f := fun s => |v s - w s|) (fun _ _ => abs_nonneg _) (Finset.mem_range.2 h)⟩

theorem boundedRate_zero (n : ℕ) : BoundedRate n fun _ => 0 := ⟨0, le_rfl, fun _ _ => by simp⟩

theorem boundedRate_add {n : ℕ} {φ ψ : (ℕ → ℝ) → ℝ} (h : BoundedRate n φ) (h' : BoundedRate n ψ) :
    BoundedRate n fun v => φ v + ψ v := by
  obtain ⟨k, k0, hk⟩ := h
  obtain ⟨m, m0, hm⟩ := h'
  refine ⟨k + m, add_nonneg k0 m0, fun v w => ?_⟩
  have h1 := abs_add_le (φ v - φ w) (ψ v - ψ w)
  have h2 := hk v w
  have h3 := hm v w
  rw [show φ v + ψ v - (φ w + ψ w) = φ v - φ w + (ψ v - ψ w) by ring, add_mul]
  linarith

theorem boundedRate_comp {n : ℕ} {φ : (ℕ → ℝ) → ℝ} (h : BoundedRate n φ) {p : ℝ → ℝ} {c : ℝ} (hc : 0 ≤ c)
    (hp : ∀ a b, |p a - p b| ≤ c * |a - b|) : BoundedRate n fun v => p (φ v) := by
  obtain ⟨k, k0, hk⟩ := h
  refine ⟨c * k, mul_nonneg hc k0, fun v w => (hp _ _).trans ?_⟩
  rw [mul_assoc]
  exact mul_le_mul_of_nonneg_left (hk v w) hc

theorem boundedRate_mul {n : ℕ} {φ : (ℕ → ℝ) → ℝ} (h : BoundedRate n φ) (c : ℝ) :
    BoundedRate n fun v => c * φ v :=
  boundedRate_comp h (abs_nonneg c) fun a b => by rw [← mul_sub, abs_mul]

theorem boundedRate_list {n : ℕ} {β : Type _} (l : List β) (F : β → (ℕ → ℝ) → ℝ)
    (h : ∀ b ∈ l, BoundedRate n (F b)) : BoundedRate n fun v => (l.map fun b => F b v).sum := by
  induction l with
  | nil => simpa using boundedRate_zero n
  | cons b l ih =>
    simp only [List.map_cons, List.sum_cons]
    exact boundedRate_add (h b List.mem_cons_self) (ih fun b' hb => h b' (List.mem_cons_of_mem _ hb))

theorem boundedRate_sum {n m : ℕ} (F : ℕ → (ℕ → ℝ) → ℝ) (h : ∀ i < m, BoundedRate n (F i)) :
    BoundedRate n fun v => ∑ i ∈ Finset.range m, F i v := by
  induction m with
  | zero => simpa using boundedRate_zero n
  | succ m ih =>
    simp only [Finset.sum_range_succ]
    exact boundedRate_add (ih fun i hi => h i (by omega)) (h m (by omega))

/-- The slope law responds at most in proportion to the penetration. -/
theorem slope_rate (slope : ℝ) (hs : 0 ≤ slope) (b c x y : ℝ) :
    |slopeSubderivative slope x b c - slopeSubderivative slope y b c| ≤ slope * |x - y| := by
  have h1 : ∀ x, slopeSubderivative slope x b c = slope * max x 0 := fun x => by
    unfold slopeSubderivative
    split_ifs with h
    · rw [max_eq_right h, mul_zero]
    · rw [max_eq_left (not_le.1 h).le]
  rw [h1, h1, ← mul_sub, abs_mul, abs_of_nonneg hs]
  exact mul_le_mul_of_nonneg_left (abs_max_sub_max_le_abs x y 0) hs

theorem boundedRate_normal {n : ℕ} (dim : ℕ) (F : (ℕ → ℝ) → ℕ → ℝ) (normal : ℕ → ℝ)
    (h0 : BoundedRate n fun v => F v 0) (h : ∀ i < dim, BoundedRate n fun v => F v i) :
    BoundedRate n fun v => normalComponent dim (F v) normal := by
  unfold normalComponent
  by_cases hd : dim = 1
  · simp only [if_pos hd]
    exact h0
  · simp only [if_neg hd]
    exact boundedRate_sum _ fun i hi => by
      have := boundedRate_mul (h i hi) (normal i)
      simpa only [mul_comm] using this

/-- C105: the contact of the slope law is smooth enough for motions to exist. Its forces are those of
C101. -/
theorem C105_slope (slope : ℝ) (hslope : 0 ≤ slope) (d : ContactData ℝ) (hdim : 1 < d.variableDimension)
    (N : ℕ) (he : ∀ s ∈ d.surfaces, s.edge ≠ []) (hn : ∀ s ∈ d.surfaces, ∀ node ∈ s.edge, node < N) :
    ∃ k, 0 ≤ k ∧ SmoothContact (d.variableDimension * N)
      (fun y => contactCostFunctional Real.sqrt (frictionless (slopePotential slope)) d
        ⟨d.variableDimension * N, y⟩)
      (contactForces Real.sqrt (slopeSubderivative slope) d N) k := by
  set n := d.variableDimension * N with hndef
  have hrate : ∀ r < n, BoundedRate n fun v =>
      contactForces Real.sqrt (slopeSubderivative slope) d N v r := by
    intro r hr
    have hN : 0 < N := by
      rcases Nat.eq_zero_or_pos N with h | h
      · rw [hndef, h, mul_zero] at hr; omega
      · exact h
    have hentry : ∀ i < d.variableDimension, ∀ node < N, BoundedRate n fun v => v (i * N + node) := by
      intro i hi node hnode
      refine boundedRate_entry ?_
      calc i * N + node < i * N + N := by omega
        _ = (i + 1) * N := by ring
        _ ≤ d.variableDimension * N := Nat.mul_le_mul_right _ hi
    unfold contactForces contactForce
    refine boundedRate_list _ _ fun s hs => boundedRate_mul (boundedRate_mul (boundedRate_add ?_ ?_) _) _
    · simp only [div_eq_inv_mul]
      refine boundedRate_mul ?_ _
      unfold pressure
      refine boundedRate_comp (boundedRate_normal _ _ _ ?_ ?_) hslope (slope_rate slope hslope _ _)
      · unfold meanOver
        simp only [div_eq_inv_mul]
        exact boundedRate_mul (boundedRate_list _ _ fun node hnode =>
          hentry 0 (by omega) node (hn s hs node hnode)) _
      · intro i hi
        unfold meanOver
        simp only [div_eq_inv_mul]
        exact boundedRate_mul (boundedRate_list _ _ fun node hnode =>
          hentry i hi node (hn s hs node hnode)) _
    · unfold pressure
      exact boundedRate_comp (boundedRate_normal _ (fun v i => v (i * N + r % N)) _
        (hentry 0 (by omega) _ (Nat.mod_lt _ hN)) fun i hi => hentry i hi _ (Nat.mod_lt _ hN)) hslope
        (slope_rate slope hslope _ _)
  choose! k hk0 hk using hrate
  refine ⟨∑ r ∈ Finset.range n, |k r|, Finset.sum_nonneg fun _ _ => abs_nonneg _, ?_, ?_⟩
  · intro v y
    have hJ : ConvexVec fun y => contactCostFunctional Real.sqrt (frictionless (slopePotential slope)) d
        ⟨n, y⟩ :=
      C48_contact_convex Real.sqrt isSqrt_real _ d (fun s _ sn st =>
        C48_density_convex _ _ _ _ _ _ (C47_convex slope sn d.dt hslope)) _
    have hderiv := C49_contact_derivative (slopePotential slope) (slopeSubderivative slope) d n v
      (fun i => y i - v i) fun s _ a _ => C47_derivative slope _ _ a
    rw [hndef, work_contactForces Real.sqrt _ d N hdim he hn, ← hndef] at hderiv
    have hconv : ConvexOn ℝ Set.univ fun t : ℝ => contactCostFunctional Real.sqrt
        (frictionless (slopePotential slope)) d ⟨n, fun i => v i + t * (y i - v i)⟩ := by
      refine ⟨convex_univ, fun s _ t _ a b ha hb hab => ?_⟩
      have := hJ (fun i => v i + s * (y i - v i)) (fun i => v i + t * (y i - v i)) a b ha hb hab
      have e : (fun i => a * (v i + s * (y i - v i)) + b * (v i + t * (y i - v i))) =
          fun i => v i + (a • s + b • t) * (y i - v i) := by
        funext i
        simp only [smul_eq_mul]
        linear_combination (v i) * hab
      rw [e] at this
      exact this
    have := hconv.le_slope_of_hasDerivAt (Set.mem_univ 0) (Set.mem_univ 1) one_pos hderiv
    rw [slope_def_field] at this
    simp only [one_mul, zero_mul, add_zero, sub_zero, div_one, add_sub_cancel] at this
    have e : ∑ r ∈ Finset.range n, (y r - v r) *
        contactForces Real.sqrt (slopeSubderivative slope) d N v r =
        ∑ r ∈ Finset.range n, contactForces Real.sqrt (slopeSubderivative slope) d N v r *
          (y r - v r) := Finset.sum_congr rfl fun r _ => mul_comm _ _
    rw [e]
    linarith
  · intro v w r hr
    refine (hk r hr v w).trans (mul_le_mul_of_nonneg_right ?_
      (Finset.sum_nonneg fun _ _ => abs_nonneg _))
    exact (le_abs_self _).trans (Finset.single_le_sum (f := fun r => |k r|)
      (fun _ _ => abs_nonneg _) (Finset.mem_range.2 hr))

/-! ### Convergence -/

/-- The initial error. -/
theorem energyDistance_zero {n : ℕ} {M B : ℕ → ℕ → ℝ} {u v u' v' : ℕ → ℝ}
    (h : ∀ r < n, u' r = u r ∧ v' r = v r) : energyDistance n M B u v u' v' = 0 := by
  unfold energyDistance
  rw [quad_zero_vector fun r hr => by rw [(h r hr).1, sub_self],
    quad_zero_vector fun r hr => by rw [(h r hr).2, sub_self], add_zero, Real.sqrt_zero]

/-- C105, dynamic elasticity: there is a motion of the body from the initial state, and the states
returned by `solve` are at most a multiple of the elapsed time and of the time step away from it. The
multiple depends on the body, the loads and the initial state, not on the time step. -/
theorem C105_converges {c : ProblemClass} (e : Engine ℝ) (hk : e.kind = .dynamicVelocity)
    (hr : Registered c e.cls e.kind) (hne : e.cls ≠ .direct) {d : ℕ} (hdim : e.ops.dimension = d)
    (D : ℕ → Prop) [DecidablePred D] (hv : ValidBoundaries e.ops.nodesCount e.boundaries)
    (hd : DirichletData e.ops.nodesCount 2 e.boundaries D fun _ => 0)
    (hM : StoresEnergy (d * e.ops.nodesCount) e.ops.acceleration)
    (hdef : DefiniteOn (d * e.ops.nodesCount) D e.ops.acceleration)
    (hA : Dissipates (d * e.ops.nodesCount) e.ops.viscosity)
    (hB : StoresEnergy (d * e.ops.nodesCount) e.ops.elasticity) (J : (ℕ → ℝ) → ℝ)
    (g : (ℕ → ℝ) → ℕ → ℝ) (k : ℝ) (hk0 : 0 ≤ k) (hg : SmoothContact (d * e.ops.nodesCount) J g k)
    (T l : ℝ) (hT : 0 ≤ T) (hl : 0 ≤ l)
    (hf : ∀ s ∈ Set.Icc 0 T, ∀ t ∈ Set.Icc 0 T, ∀ r < d * e.ops.nodesCount,
      |e.ops.force s r - e.ops.force t r| ≤ l * |s - t|)
    (hs : ∀ dt, 0 < dt → ContactSolve e (d * e.ops.nodesCount) D dt J)
    (u₀ v₀ : ℕ → ℕ → ℝ) (hv₀ : Still (d * e.ops.nodesCount) D (State.flatten e.grid v₀)) :
    ∃ (u v acc : ℝ → ℕ → ℝ) (C : ℝ),
      Motion (d * e.ops.nodesCount) D e.ops.acceleration e.ops.viscosity e.ops.elasticity J e.ops.force
        0 T u v acc ∧
      (∀ r < d * e.ops.nodesCount,
        u 0 r = State.flatten e.grid u₀ r ∧ v 0 r = State.flatten e.grid v₀ r) ∧
      ∀ (a : Engine.Arguments ℝ) (solver : SolverState ℝ) (store : ProductStore ℝ V)
        (rs : List (State ℝ)) (sim : Simulation ℝ V),
        a.initialDisplacement = u₀ → a.initialVelocity = v₀ → 0 < solver.timeStep →
        solver.currentTime = 0 → e.timeDependentSolve a solver store = .ok (rs, sim) →
        ∀ s ∈ rs, s.time ≤ T →
          energyDistance (d * e.ops.nodesCount) e.ops.acceleration e.ops.elasticity
            (State.flatten e.grid s.displacement) (State.flatten e.grid s.velocity)
            (u s.time) (v s.time) ≤ s.time * solver.timeStep * C := by
  obtain ⟨u, v, acc, hm, h0, cv, ca, cf, hmod⟩ := C105_exists hM hdef e.ops.viscosity e.ops.elasticity
    hk0 hg T l hT hl hf (State.flatten e.grid u₀) (State.flatten e.grid v₀) hv₀
  refine ⟨u, v, acc, (cv + ca) / 2 + cf, hm, h0, fun a solver store rs sim ha1 ha2 hdt hc h s hmem hsT => ?_⟩
  have := C105_dynamic e hk hr hne hdim D hv hd hM hA hB J T u v acc hm cv ca cf hmod a solver hdt hc
    (hs _ hdt) store rs sim h s hmem hsT
  rwa [ha1, ha2, energyDistance_zero h0, zero_add] at this

/-- C105, waves. -/
theorem C105_converges_wave {c : ProblemClass} (e : Engine ℝ) (hk : e.kind = .wave)
    (hr : Registered c e.cls e.kind) (hne : e.cls ≠ .direct)
    (D : ℕ → Prop) [DecidablePred D] (hv : ValidBoundaries e.ops.nodesCount e.boundaries)
    (hd : DirichletData e.ops.nodesCount 1 e.boundaries D fun _ => 0)
    (hM : StoresEnergy e.ops.nodesCount e.ops.acceleration)
    (hdef : DefiniteOn e.ops.nodesCount D e.ops.acceleration)
    (hB : StoresEnergy e.ops.nodesCount e.ops.poisson) (J : (ℕ → ℝ) → ℝ)
    (g : (ℕ → ℝ) → ℕ → ℝ) (k : ℝ) (hk0 : 0 ≤ k) (hg : SmoothContact e.ops.nodesCount J g k)
    (T l : ℝ) (hT : 0 ≤ T) (hl : 0 ≤ l)
    (hf : ∀ s ∈ Set.Icc 0 T, ∀ t ∈ Set.Icc 0 T, ∀ r < e.ops.nodesCount,
      |e.ops.force s r - e.ops.force t r| ≤ l * |s - t|)
    (hs : ∀ dt, 0 < dt → ContactSolve e e.ops.nodesCount D dt J)
    (u₀ v₀ : ℕ → ℕ → ℝ) (hv₀ : Still e.ops.nodesCount D (State.flatten e.grid v₀)) :
    ∃ (u v acc : ℝ → ℕ → ℝ) (C : ℝ),
      Motion e.ops.nodesCount D e.ops.acceleration (fun _ _ => 0) e.ops.poisson J e.ops.force
        0 T u v acc ∧
      (∀ r < e.ops.nodesCount,
        u 0 r = State.flatten e.grid u₀ r ∧ v 0 r = State.flatten e.grid v₀ r) ∧
      ∀ (a : Engine.Arguments ℝ) (solver : SolverState ℝ) (store : ProductStore ℝ V)
        (rs : List (State ℝ)) (sim : Simulation ℝ V),
        a.initialDisplacement = u₀ → a.initialVelocity = v₀ → 0 < solver.timeStep →
        e.waveSolve a none solver store = .ok (rs, sim) →
        ∀ s ∈ rs, s.time ≤ T →
          energyDistance e.ops.nodesCount e.ops.acceleration e.ops.poisson
            (State.flatten e.grid s.displacement) (State.flatten e.grid s.velocity)
            (u s.time) (v s.time) ≤ s.time * solver.timeStep * C := by
  obtain ⟨u, v, acc, hm, h0, cv, ca, cf, hmod⟩ := C105_exists hM hdef (fun _ _ => 0) e.ops.poisson
    hk0 hg T l hT hl hf (State.flatten e.grid u₀) (State.flatten e.grid v₀) hv₀
  refine ⟨u, v, acc, (cv + ca) / 2 + cf, hm, h0, fun a solver store rs sim ha1 ha2 hdt h s hmem hsT => ?_⟩
  have := C105_wave e hk hr hne D hv hd hM hB J a none T u v acc hm cv ca cf hmod solver hdt
    (hs _ hdt) store rs sim h s hmem hsT
  simp only [Option.elim_none] at this
  rwa [ha1, ha2, energyDistance_zero h0, zero_add, sub_zero] at this

/-- C105: two runs with the same time step, from different states and with different loads. The distance
of their states is at most that of the initial states and the accumulated difference of the loads. -/
theorem C105_stable {c : ProblemClass} (e : Engine ℝ) (hk : e.kind = .dynamicVelocity)
    (hr : Registered c e.cls e.kind) (hne : e.cls ≠ .direct) {d : ℕ} (hdim : e.ops.dimension = d)
    (D : ℕ → Prop) [DecidablePred D] (hv : ValidBoundaries e.ops.nodesCount e.boundaries)
    (hd : DirichletData e.ops.nodesCount 2 e.boundaries D fun _ => 0)
    (hM : StoresEnergy (d * e.ops.nodesCount) e.ops.acceleration)
    (hA : Dissipates (d * e.ops.nodesCount) e.ops.viscosity)
    (hB : StoresEnergy (d * e.ops.nodesCount) e.ops.elasticity) (J : (ℕ → ℝ) → ℝ)
    (f' : ℝ → ℕ → ℝ) (solve' : SolverState ℝ → (ℕ → ℝ) → ℕ → ℝ) (m : ℕ)
    (traj traj' : ℕ → Simulation ℝ V) :
    let e' : Engine ℝ := { e with ops := { e.ops with force := f' }, solve := solve' }
    let dt := (traj 0).solver.timeStep
    let distance := fun k => energyDistance (d * e.ops.nodesCount) e.ops.acceleration e.ops.elasticity
      (State.flatten e.grid (traj k).state.displacement) (State.flatten e.grid (traj k).state.velocity)
      (State.flatten e.grid (traj' k).state.displacement) (State.flatten e.grid (traj' k).state.velocity)
    ∀ (_ : Follows (e.step .velocity) m traj) (_ : Follows (e'.step .velocity) m traj')
      (_ : Between e dt (traj 0).solver (traj 0).state.toSnapshot)
      (_ : Between e' dt (traj' 0).solver (traj' 0).state.toSnapshot)
      (_ : (traj' 0).state.time = (traj 0).state.time) (_ : 0 < dt)
      (_ : ContactSolve e (d * e.ops.nodesCount) D dt J) (_ : ContactSolve e' (d * e.ops.nodesCount) D dt J)
      (β : ℕ → ℝ) (_ : ∀ i < m, 0 ≤ β i ∧ ∀ x, Still (d * e.ops.nodesCount) D x →
        ∑ r ∈ Finset.range (d * e.ops.nodesCount), x r *
          (e.ops.force ((traj 0).state.time + i * dt) r - f' ((traj 0).state.time + i * dt) r) ≤
        β i * Real.sqrt (quad (d * e.ops.nodesCount) e.ops.acceleration x)),
      ∀ k ≤ m, distance k ≤ distance 0 + dt * ∑ i ∈ Finset.range k, β i := by
  intro e' dt distance hf hf' hb hb' ht hdt hs hs' β hβ k
  suffices main : k ≤ m → Between e dt (traj k).solver (traj k).state.toSnapshot ∧
      Between e' dt (traj' k).solver (traj' k).state.toSnapshot ∧
      (traj k).state.time = (traj 0).state.time + k * dt ∧
      (traj' k).state.time = (traj 0).state.time + k * dt ∧
      distance k ≤ distance 0 + dt * ∑ i ∈ Finset.range k, β i from fun h => (main h).2.2.2.2
  induction k with
  | zero => intro _; exact ⟨hb, hb', by simp, by simpa using ht, by simp⟩
  | succ k ih =>
    intro hkm
    obtain ⟨i1, i2, i3, i4, i5⟩ := ih (by omega)
    obtain ⟨b1, s1⟩ := dynamic_balanced e hk hr hne hdim D hv hd dt J hs _ _ i1 (hf k (by omega))
    obtain ⟨b2, s2⟩ := dynamic_balanced e' hk hr hne hdim D hv hd dt J hs' _ _ i2 (hf' k (by omega))
    have t1 : (traj (k + 1)).state.time = (traj k).state.time + dt := s1.time
    have t2 : (traj' (k + 1)).state.time = (traj' k).state.time + dt := s2.time
    refine ⟨b1, b2, by rw [t1, i3]; push_cast; ring, by rw [t2, i4]; push_cast; ring, ?_⟩
    have d1 : State.flatten e.grid (traj (k + 1)).state.displacement = _ := s1.displacement
    have d2 : State.flatten e.grid (traj' (k + 1)).state.displacement = _ := s2.displacement
    have q1 : Still (d * e.ops.nodesCount) D (State.flatten e.grid (traj (k + 1)).state.velocity) := s1.held
    have q2 : Still (d * e.ops.nodesCount) D (State.flatten e.grid (traj' (k + 1)).state.velocity) := s2.held
    have q3 : Still (d * e.ops.nodesCount) D fun i =>
        State.flatten e.grid (traj (k + 1)).state.velocity i -
          State.flatten e.grid (traj' (k + 1)).state.velocity i := fun r hr hD => by
      beta_reduce
      rw [q1 r hr hD, q2 r hr hD, sub_zero]
    obtain ⟨β0, hβ'⟩ := hβ k (by omega)
    have hz : ∀ Q : ℕ → ℕ → ℝ, ∀ x : ℕ → ℝ, (∀ i, x i = 0) →
        quad (d * e.ops.nodesCount) Q x ≤ 0 ^ 2 := fun Q x hx => by
      rw [quad_zero_vector fun r _ => hx r]; norm_num
    have step := distance_step (u := State.flatten e.grid (traj k).state.displacement)
      (v := State.flatten e.grid (traj k).state.velocity)
      (u₀ := State.flatten e.grid (traj' k).state.displacement)
      (v₀ := State.flatten e.grid (traj' k).state.velocity) (ρ := 0) (σ := 0) (β := β k)
      hM hA hB hdt q1 q2 s1.balanced s2.balanced le_rfl le_rfl β0
      (hz _ _ fun i => by beta_reduce; exact sub_self _)
      (hz _ _ fun i => by
        change State.flatten e.grid (traj' k).state.displacement i +
          dt * State.flatten e.grid (traj' (k + 1)).state.velocity i -
          State.flatten e.grid (traj' k).state.displacement i -
          dt * State.flatten e.grid (traj' (k + 1)).state.velocity i = 0
        ring)
      (by
        have := hβ' _ q3
        rw [← i3] at this
        have t' : (traj' k).state.time = (traj k).state.time := i4.trans i3.symm
        change ∑ r ∈ Finset.range (d * e.ops.nodesCount),
          (State.flatten e.grid (traj (k + 1)).state.velocity r -
            State.flatten e.grid (traj' (k + 1)).state.velocity r) *
            (e.ops.force (traj k).state.time r - f' (traj' k).state.time r) ≤ _
        rw [t']
        exact this)
    have e1 : distance (k + 1) = energyDistance (d * e.ops.nodesCount) e.ops.acceleration
        e.ops.elasticity
        (fun i => State.flatten e.grid (traj k).state.displacement i +
          dt * State.flatten e.grid (traj (k + 1)).state.velocity i)
        (State.flatten e.grid (traj (k + 1)).state.velocity)
        (fun i => State.flatten e.grid (traj' k).state.displacement i +
          dt * State.flatten e.grid (traj' (k + 1)).state.velocity i)
        (State.flatten e.grid (traj' (k + 1)).state.velocity) := by
      change energyDistance _ _ _ _ _ _ _ = _
      rw [d1, d2]
    rw [e1, Finset.sum_range_succ]
    refine (step.trans (add_le_add_left i5 _)).trans (le_of_eq ?_)
    ring

/-! ### Bodies on triangular meshes -/

/-- The systems of the time steps of a body with nonzero density are positive definite and symmetric. -/
theorem dynamic_lhs {n : ℕ} {D : ℕ → Prop} (ops : Operators ℝ) (var : Variables ℝ) (lhs : ℕ → ℕ → ℝ)
    (dt : ℝ) (hdt : 0 < dt) (hvar : var.timeStep = some dt)
    (h : updateLhs ops var .dynamicVelocity = .ok lhs) (hM : StoresEnergy n ops.acceleration)
    (hdef : DefiniteOn n D ops.acceleration) (hA : Dissipates n ops.viscosity)
    (hAs : ∀ r < n, ∀ s < n, ops.viscosity r s = ops.viscosity s r) (hB : StoresEnergy n ops.elasticity) :
    (∀ r < n, ∀ s < n, lhs r s = lhs s r) ∧
    ∀ x : ℕ → ℝ, Still n D x → (∃ r < n, x r ≠ 0) → 0 < quad n lhs x := by
  obtain rfl : (fun r s => ops.viscosity r s + 1 / dt * ops.acceleration r s + ops.elasticity r s * dt) =
      lhs := by
    simpa [updateLhs, dynamicLhs, quasistaticLhs, hvar, required, bind, Except.bind, pure,
      Except.pure] using h
  refine ⟨fun r hr s hs => ?_, fun x hx hne => ?_⟩
  · beta_reduce
    rw [hAs r hr s hs, hM.symm r hr s hs, hB.symm r hr s hs]
  · have e1 : quad n (fun r s => ops.viscosity r s + 1 / dt * ops.acceleration r s +
        ops.elasticity r s * dt) x = quad n ops.viscosity x + 1 / dt * quad n ops.acceleration x +
        dt * quad n ops.elasticity x := by
      simp only [quad_eq_act, act, Finset.mul_sum, ← Finset.sum_add_distrib]
      exact Finset.sum_congr rfl fun r _ => Finset.sum_congr rfl fun s _ => by ring
    have h1 := hA.nonneg x
    have h2 := hB.nonneg x
    have h3 : 0 < quad n ops.acceleration x := by
      refine lt_of_le_of_ne (hM.nonneg x) fun h0 => ?_
      obtain ⟨r, hr, hxr⟩ := hne
      exact hxr (hdef x hx h0.symm r hr)
    rw [e1]
    have h4 : 0 < 1 / dt * quad n ops.acceleration x := by positivity
    have h5 : 0 ≤ dt * quad n ops.elasticity x := by positivity
    linarith

/-- C105: a supported body on a triangular mesh in contact with an obstacle of the slope law. There is
exactly one motion from the initial state; the states returned by `solve` follow it, and the error is at
most a multiple of the elapsed time and of the time step. The solver minimises the cost functional. -/
theorem C105_body {c : ProblemClass} (e : Engine ℝ) (hk : e.kind = .dynamicVelocity)
    (hr : Registered c e.cls e.kind) (hne : e.cls ≠ .direct) (hdim : e.ops.dimension = 2)
    {elements : List (List ℕ)} {nodes : ℕ → ℕ → ℝ} (hve : ValidElements 2 e.ops.nodesCount elements)
    (hnd : Nondegenerate2 elements nodes) (hall : ∀ p < e.ops.nodesCount, ∃ t ∈ elements, p ∈ t)
    (density mu lam theta zeta : ℝ) (hdensity : 0 < density) (hmu : 0 ≤ mu) (hlam : 0 ≤ lam)
    (htheta : 0 ≤ theta) (hzeta : 0 ≤ zeta)
    (hacc : e.ops.acceleration =
      Plane.acceleration e.ops.nodesCount (basicMatrices2 elements nodes).U density)
    (hel : e.ops.elasticity =
      Plane.constitutive e.ops.nodesCount (basicMatrices2 elements nodes).W mu lam)
    (hvis : e.ops.viscosity =
      Plane.constitutive e.ops.nodesCount (basicMatrices2 elements nodes).W theta zeta)
    (D : ℕ → Prop) [DecidablePred D] (hv : ValidBoundaries e.ops.nodesCount e.boundaries)
    (hd : DirichletData e.ops.nodesCount 2 e.boundaries D fun _ => 0)
    (slope : ℝ) (hslope : 0 ≤ slope) (d : ContactData ℝ) (hd2 : d.variableDimension = 2)
    (he : ∀ s ∈ d.surfaces, s.edge ≠ [])
    (hn : ∀ s ∈ d.surfaces, ∀ node ∈ s.edge, node < e.ops.nodesCount)
    (hap : ContactApart e.ops.nodesCount D d)
    (data : SolverState ℝ → ContactData ℝ)
    (hdata : ∀ S, (data S).variableDimension = 2 ∧ (data S).nodes = d.nodes ∧
      (data S).surfaces = d.surfaces)
    (impl : SolverState ℝ → (ℕ → ℝ) → ℕ → ℝ)
    (hsolve : ∀ S guess, e.solve S guess =
      solverSolve (impl S) e.ops.nodesCount 2 e.boundaries guess)
    (hs : ∀ (S : SolverState ℝ) (guess : ℕ → ℝ) (var : Variables ℝ) (dt : ℝ), 0 < dt →
      var.timeStep = some dt → StatementKind.dynamicVelocity.update e.ops e.boundaries var = .ok S.system →
      Minimises (fun y => costFunctional Real.sqrt (frictionless (slopePotential slope)) (data S)
        (2 * e.ops.nodesCount) S.system.lhs S.system.rhs ⟨2 * e.ops.nodesCount, y⟩) (impl S guess))
    (T l : ℝ) (hT : 0 ≤ T) (hl : 0 ≤ l)
    (hf : ∀ s ∈ Set.Icc 0 T, ∀ t ∈ Set.Icc 0 T, ∀ r < 2 * e.ops.nodesCount,
      |e.ops.force s r - e.ops.force t r| ≤ l * |s - t|)
    (u₀ v₀ : ℕ → ℕ → ℝ) (hv₀ : Still (2 * e.ops.nodesCount) D (State.flatten e.grid v₀)) :
    let J := fun y => contactCostFunctional Real.sqrt (frictionless (slopePotential slope)) d
      ⟨2 * e.ops.nodesCount, y⟩
    let MotionOf := fun u v acc : ℝ → ℕ → ℝ => Motion (2 * e.ops.nodesCount) D e.ops.acceleration
      e.ops.viscosity e.ops.elasticity J e.ops.force 0 T u v acc ∧
      ∀ r < 2 * e.ops.nodesCount,
        u 0 r = State.flatten e.grid u₀ r ∧ v 0 r = State.flatten e.grid v₀ r
    ∃ (u v acc : ℝ → ℕ → ℝ) (C : ℝ), MotionOf u v acc ∧
      (∀ u' v' acc', MotionOf u' v' acc' → ∀ t ∈ Set.Icc 0 T, ∀ r < 2 * e.ops.nodesCount,
        u' t r = u t r ∧ v' t r = v t r) ∧
      ∀ (a : Engine.Arguments ℝ) (solver : SolverState ℝ) (store : ProductStore ℝ V)
        (rs : List (State ℝ)) (sim : Simulation ℝ V),
        a.initialDisplacement = u₀ → a.initialVelocity = v₀ → 0 < solver.timeStep →
        solver.currentTime = 0 → e.timeDependentSolve a solver store = .ok (rs, sim) →
        ∀ s ∈ rs, s.time ≤ T →
          energyDistance (2 * e.ops.nodesCount) e.ops.acceleration e.ops.elasticity
            (State.flatten e.grid s.displacement) (State.flatten e.grid s.velocity)
            (u s.time) (v s.time) ≤ s.time * solver.timeStep * C := by
  intro J MotionOf
  obtain ⟨o1, o2, o3, -, -⟩ := C71_operators2 hve hnd density mu lam theta zeta 0 hdensity.le hmu hlam
    htheta hzeta
  rw [← hacc] at o1
  rw [← hel] at o2
  rw [← hvis] at o3
  have hdef : DefiniteOn (2 * e.ops.nodesCount) D e.ops.acceleration := by
    rw [hacc]; exact (C74_mass2 hve hnd density hdensity hall D).1
  have hAs : ∀ r < 2 * e.ops.nodesCount, ∀ s < 2 * e.ops.nodesCount,
      e.ops.viscosity r s = e.ops.viscosity s r := by
    rw [hvis]; exact C26_symmetric hve hnd theta zeta
  have hcs : ∀ dt, 0 < dt → ContactSolve e (2 * e.ops.nodesCount) D dt J := by
    intro dt hdt
    have := C105_law e D d (by omega) (by rw [hd2, hk]; rfl) hv
      (by rw [hd2]; exact hd) dt (by
        rw [hd2, hk]
        exact fun var lhs hvar h => dynamic_lhs e.ops var lhs dt hdt hvar h o1 hdef o3 hAs o2 |>.1)
      (slopePotential slope) (fun _ _ _ _ _ => rfl) (fun b c => C47_convex slope b c hslope) hn hap data
      (by rw [hd2]; exact hdata) impl (by rw [hd2]; exact hsolve) (by
        rw [hd2, hk]
        exact fun S guess var hvar h => hs S guess var dt hdt hvar h)
    rw [hd2] at this
    exact this
  obtain ⟨k, hk0, hg⟩ := C105_slope slope hslope d (by omega) e.ops.nodesCount he hn
  rw [hd2] at hg
  obtain ⟨u, v, acc, C, hm, h0, hC⟩ := C105_converges (V := V) e hk hr hne hdim D hv hd o1 hdef o3 o2 J _ k
    hk0 hg T l hT hl hf hcs u₀ v₀ hv₀
  refine ⟨u, v, acc, C, ⟨hm, h0⟩, fun u' v' acc' h' t ht r hr => ?_, hC⟩
  exact C105_unique o1 o3 o2 hdef h'.1 hm (fun r hr => ((h'.2 r hr).1).trans (h0 r hr).1.symm)
    (fun r hr => ((h'.2 r hr).2).trans (h0 r hr).2.symm) t ht r hr

/-- C105: minimisers as required above exist for every time step. -/
theorem C105_solver (ops : Operators ℝ) (hdim : ops.dimension = 2)
    {elements : List (List ℕ)} {nodes : ℕ → ℕ → ℝ} (hve : ValidElements 2 ops.nodesCount elements)
    (hnd : Nondegenerate2 elements nodes) (hall : ∀ p < ops.nodesCount, ∃ t ∈ elements, p ∈ t)
    (density mu lam theta zeta : ℝ) (hdensity : 0 < density) (hmu : 0 ≤ mu) (hlam : 0 ≤ lam)
    (htheta : 0 ≤ theta) (hzeta : 0 ≤ zeta)
    (hacc : ops.acceleration = Plane.acceleration ops.nodesCount (basicMatrices2 elements nodes).U density)
    (hel : ops.elasticity = Plane.constitutive ops.nodesCount (basicMatrices2 elements nodes).W mu lam)
    (hvis : ops.viscosity = Plane.constitutive ops.nodesCount (basicMatrices2 elements nodes).W theta zeta)
    (bs : List (CondBoundary ℝ))
    (D : ℕ → Prop) [DecidablePred D] (hv : ValidBoundaries ops.nodesCount bs)
    (hd : DirichletData ops.nodesCount 2 bs D fun _ => 0)
    (slope : ℝ) (hslope : 0 ≤ slope) (data : SolverState ℝ → ContactData ℝ)
    (hdata : ∀ S, (data S).variableDimension = 2) :
    ∃ impl : SolverState ℝ → (ℕ → ℝ) → ℕ → ℝ, ∀ (S : SolverState ℝ) (guess : ℕ → ℝ) (var : Variables ℝ)
      (dt : ℝ), 0 < dt → var.timeStep = some dt →
      StatementKind.dynamicVelocity.update ops bs var = .ok S.system →
      Minimises (fun y => costFunctional Real.sqrt (frictionless (slopePotential slope)) (data S)
        (2 * ops.nodesCount) S.system.lhs S.system.rhs ⟨2 * ops.nodesCount, y⟩) (impl S guess) := by
  classical
  obtain ⟨o1, o2, o3, -, -⟩ := C71_operators2 hve hnd density mu lam theta zeta 0 hdensity.le hmu hlam
    htheta hzeta
  rw [← hacc] at o1
  rw [← hel] at o2
  rw [← hvis] at o3
  have hdef : DefiniteOn (2 * ops.nodesCount) D ops.acceleration := by
    rw [hacc]; exact (C74_mass2 hve hnd density hdensity hall D).1
  have hAs : ∀ r < 2 * ops.nodesCount, ∀ s < 2 * ops.nodesCount,
      ops.viscosity r s = ops.viscosity s r := by
    rw [hvis]; exact C26_symmetric hve hnd theta zeta
  refine ⟨fun S _ => if h : ∃ x, Minimises (fun y => costFunctional Real.sqrt
      (frictionless (slopePotential slope)) (data S) (2 * ops.nodesCount) S.system.lhs S.system.rhs
      ⟨2 * ops.nodesCount, y⟩) x then h.choose else fun _ => 0, fun S guess var dt hdt hvar hu => ?_⟩
  have hex : ∃ x, Minimises (fun y => costFunctional Real.sqrt
      (frictionless (slopePotential slope)) (data S) (2 * ops.nodesCount) S.system.lhs S.system.rhs
      ⟨2 * ops.nodesCount, y⟩) x := by
    obtain ⟨lhs, rhs, h2, -, h3⟩ := update_eliminated _ _ _ _ _ hu
    have h3 : S.system = applyDirichlet ops.nodesCount 2 bs ⟨lhs, rhs⟩ := h3
    obtain ⟨x, hx, -⟩ := C89_unique_minimiser (frictionless (slopePotential slope)) (data S)
      (by rw [hdata]; norm_num) (fun s _ sn st =>
        C48_density_convex _ _ _ _ _ _ (C47_convex slope sn _ hslope)) (2 * ops.nodesCount) S.system
      (by
        rw [h3]
        exact C13_positive ops.nodesCount 2 bs ⟨lhs, rhs⟩ D (fun _ => 0) hv hd
          (dynamic_lhs ops var lhs dt hdt hvar h2 o1 hdef o3 hAs o2).2)
    exact ⟨x, hx⟩
  beta_reduce
  rw [dif_pos hex]
  exact hex.choose_spec

/-- C105: runs without products succeed, with every registered solver and from every state. -/
theorem C105_runs {c : ProblemClass} (e : Engine ℝ) (hr : Registered c e.cls e.kind)
    (hne : e.cls ≠ .quasistaticRelaxedGlobal) (hR : ∀ t, ∃ R, e.ops.relaxation (some t) = .ok R)
    (a : Engine.Arguments ℝ) (ha : a.products = []) (solver : SolverState ℝ) (store : ProductStore ℝ V) :
    ∃ rs sim, e.timeDependentSolve a solver store = .ok (rs, sim) := by
  have hi : ∀ s, ∃ s', e.iterate s = .ok s' := fun s => by
    obtain ⟨s', h⟩ := C46_step_succeeds_partial e.ops e.boundaries c e.cls e.kind hr hne hR s
    exact ⟨s', by simp [Engine.iterate, h, liftStatement]⟩
  have h1 : ∀ sim : Simulation ℝ V, sim.state.products = [] →
      ∃ sim', e.step .velocity sim = .ok sim' ∧ sim'.state.products = [] := by
    intro sim hp
    have hp' : ∀ v t, (sim.state.withVelocity e.grid v t true).products = [] := fun v t => hp
    simp only [Engine.step, Engine.findSolution, Engine.item, State.setVelocity, hp', updateAll, bind,
      Except.bind, pure, Except.pure]
    obtain ⟨s', h⟩ := hi { sim.solver with
      currentTime := sim.solver.currentTime + sim.solver.timeStep
      uVector := State.flatten e.grid (sim.state.withVelocity e.grid (e.solve { sim.solver with
        currentTime := sim.solver.currentTime + sim.solver.timeStep }
        (State.flatten e.grid sim.state.velocity))
        (sim.solver.currentTime + sim.solver.timeStep) true).displacement
      vVector := State.flatten e.grid (sim.state.withVelocity e.grid (e.solve { sim.solver with
        currentTime := sim.solver.currentTime + sim.solver.timeStep }
        (State.flatten e.grid sim.state.velocity))
        (sim.solver.currentTime + sim.solver.timeStep) true).velocity }
    rw [h]
    exact ⟨_, rfl, hp⟩
  have h2 : ∀ (k : ℕ) (sim : Simulation ℝ V), sim.state.products = [] →
      ∃ sim', e.steps .velocity k sim = .ok sim' ∧ sim'.state.products = [] := by
    intro k
    induction k with
    | zero => exact fun sim hp => ⟨sim, rfl, hp⟩
    | succ k ih =>
      intro sim hp
      obtain ⟨s1, h3, h4⟩ := h1 sim hp
      obtain ⟨s2, h5, h6⟩ := ih s1 h4
      exact ⟨s2, by simp [Engine.steps, h3, h5, bind, Except.bind], h6⟩
  have h3 : ∀ (l : List ℤ) (sim : Simulation ℝ V), sim.state.products = [] →
      ∃ r, e.outputs .velocity [] l sim = .ok r := by
    intro l
    induction l with
    | nil => exact fun sim _ => ⟨_, rfl⟩
    | cons k l ih =>
      intro sim hp
      obtain ⟨s1, h4, h5⟩ := h2 k.toNat sim hp
      obtain ⟨r, h6⟩ := ih { s1 with store := (s1.state.copy e.grid s1.store).2 } h5
      exact ⟨((s1.state.copy e.grid s1.store).1 :: r.1, r.2), by
        simp [Engine.outputs, Engine.run, Engine.inject, h4, h6, bind, Except.bind, pure, Except.pure]⟩
  simp only [Engine.timeDependentSolve, ha, bind, Except.bind]
  obtain ⟨s', h⟩ := hi { solver with
    uVector := State.flatten e.grid a.initialDisplacement
    vVector := State.flatten e.grid a.initialVelocity }
  rw [h]
  obtain ⟨r, h4⟩ := h3 (Engine.outputDiffs a.nSteps a.outputStep) ⟨s', { State.new e.grid .plain with
    displacement := a.initialDisplacement, velocity := a.initialVelocity }, store⟩ rfl
  exact ⟨r.1, r.2, h4⟩

/-! ### A triangle hanging from its upper corner and touching the ground -/

/-- The corners of the triangle. -/
def hangingNodes : ℕ → ℕ → ℝ := fun p i => if p = 1 ∧ i = 0 ∨ p = 2 ∧ i = 1 then 1 else 0

/-- The upper corner is held. -/
def hangingBoundaries : List (CondBoundary ℝ) := [⟨.list [2], fun _ => 0⟩]

/-- Its operators and a load growing in time. -/
noncomputable def hangingOps : Operators ℝ :=
  { dimension := 2, nodesCount := 3
    acceleration := Plane.acceleration 3 (basicMatrices2 [[0, 1, 2]] hangingNodes).U 1
    viscosity := Plane.constitutive 3 (basicMatrices2 [[0, 1, 2]] hangingNodes).W 2 3
    elasticity := Plane.constitutive 3 (basicMatrices2 [[0, 1, 2]] hangingNodes).W 4 5
    poisson := fun _ _ => 0, thermalExpansion := fun _ _ => 0, thermalConductivity := fun _ _ => 0
    permittivity := fun _ _ => 0, piezoelectricity := fun _ _ => 0
    relaxation := fun _ => .ok fun _ _ => 0
    force := fun t r => t * (r + 1), bodyTemperature := fun _ _ => 0 }

/-- The lower side touches the ground. -/
noncomputable def hangingContact : ContactData ℝ :=
  { segmentData 2 with nodes := hangingNodes, old := ⟨6, fun _ => 0⟩, staticDisplacement := ⟨6, fun _ => 0⟩ }

theorem hanging_boundaries : ValidBoundaries 3 hangingBoundaries ∧
    DirichletData 3 2 hangingBoundaries (fun r => r < 2 * 3 ∧ r % 3 = 2) (fun _ => 0) := by
  refine ⟨?_, ⟨fun r => ⟨?_, ?_⟩, ?_⟩⟩
  · intro b hb
    simp only [hangingBoundaries, List.mem_singleton] at hb
    subst hb
    refine ⟨?_, ?_⟩
    · intro v hv
      simp [nodesOf] at hv
      omega
    · intro i h; simp at h; subst h; simp
  · rintro ⟨h1, h2⟩
    refine ⟨0, _, List.mem_singleton.2 rfl, r / 3, by omega, 0, 2, ?_, by omega, rfl⟩
    simp [nodesOf]
  · rintro ⟨v, b, hb, k, hk, j, n, hn, hr, hv⟩
    simp only [hangingBoundaries, List.mem_singleton] at hb
    subst hb
    simp [nodesOf] at hn
    have : n = 2 := by
      rcases j with _ | j
      · simpa using hn.symm
      · simp at hn
    subst this
    omega
  · rintro x v ⟨b, hb, k, hk, j, n, hn, hr, hv⟩
    simp only [hangingBoundaries, List.mem_singleton] at hb
    subst hb
    exact hv.symm ▸ rfl

theorem hanging_mesh : ValidElements 2 3 [[0, 1, 2]] ∧ Nondegenerate2 [[0, 1, 2]] hangingNodes := by
  refine ⟨by unfold ValidElements; decide, fun e he => ?_⟩
  obtain rfl : e = [0, 1, 2] := by simpa using he
  simp [det2, vertices, hangingNodes]

/-- All hypotheses of `C105_body` are met by the triangle hanging from its corner: its runs converge to
the motion as the time steps get small. -/
example (store : ProductStore ℝ V) (solver : SolverState ℝ) (h0 : solver.currentTime = 0) :
    ∃ e : Engine ℝ, e.kind = .dynamicVelocity ∧ e.ops = hangingOps ∧ e.boundaries = hangingBoundaries ∧
    ∃ (u v acc : ℝ → ℕ → ℝ) (C : ℝ),
      Motion 6 (fun r => r < 2 * 3 ∧ r % 3 = 2) hangingOps.acceleration hangingOps.viscosity
        hangingOps.elasticity (fun y => contactCostFunctional Real.sqrt
          (frictionless (slopePotential 10)) hangingContact ⟨6, y⟩) hangingOps.force 0 1 u v acc ∧
      ∀ (dt : ℝ) (a : Engine.Arguments ℝ), 0 < dt → a.initialDisplacement = (fun _ _ => 0) →
        a.initialVelocity = (fun _ _ => 0) → a.products = [] →
        ∃ (rs : List (State ℝ)) (sim : Simulation ℝ V),
          e.timeDependentSolve a { solver with timeStep := dt } store = .ok (rs, sim) ∧
          ∀ s ∈ rs, s.time ≤ 1 → energyDistance 6 hangingOps.acceleration hangingOps.elasticity
            (State.flatten e.grid s.displacement) (State.flatten e.grid s.velocity)
            (u s.time) (v s.time) ≤ s.time * dt * C := by
  have hall : ∀ p < hangingOps.nodesCount, ∃ t ∈ [[0, 1, 2]], p ∈ t := by
    simp only [hangingOps]; decide
  obtain ⟨impl, himpl⟩ := C105_solver hangingOps rfl hanging_mesh.1 hanging_mesh.2 hall 1 4 5 2 3
    (by norm_num) (by norm_num) (by norm_num) (by norm_num) (by norm_num) rfl rfl rfl hangingBoundaries _
    hanging_boundaries.1 hanging_boundaries.2 10 (by norm_num) (fun _ => hangingContact) (fun _ => rfl)
  have hreg : Registered .DynamicDisplacementProblem .dynamicSchur .dynamicVelocity :=
    ⟨⟨.dynamic, by decide +kernel, by decide +kernel⟩, Or.inl (by decide +kernel)⟩
  let e : Engine ℝ :=
    { grid := ⟨3, 2, hangingNodes⟩, cls := .dynamicSchur, kind := .dynamicVelocity, ops := hangingOps
      boundaries := hangingBoundaries
      solve := fun S guess => solverSolve (impl S) 3 2 hangingBoundaries guess }
  obtain ⟨u, v, acc, C, hm, -, hC⟩ := C105_body (V := V) e
    rfl hreg SolverClass.noConfusion rfl hanging_mesh.1 hanging_mesh.2 hall 1 4 5 2 3
    (by norm_num) (by norm_num) (by norm_num) (by norm_num) (by norm_num) rfl rfl rfl
    (fun r => r < 2 * 3 ∧ r % 3 = 2) hanging_boundaries.1 hanging_boundaries.2 10 (by norm_num)
    hangingContact rfl (by simp [hangingContact, segmentData])
    (by
      intro s hs node hn
      simp only [hangingContact, segmentData, List.mem_singleton] at hs
      subst hs
      change node < 3
      rcases List.mem_pair.1 hn with h | h <;> omega)
    (by
      intro s hs node hn i hi
      simp only [hangingContact, segmentData, List.mem_singleton] at hs
      subst hs
      change ¬ (i * 3 + node < 2 * 3 ∧ (i * 3 + node) % 3 = 2)
      rcases List.mem_pair.1 hn with h | h <;> omega)
    (fun _ => hangingContact) (fun _ => ⟨rfl, rfl, rfl⟩) impl (fun _ _ => rfl) himpl 1 6 (by norm_num)
    (by norm_num)
    (by
      intro s _ t _ r hr
      have hr' : (r : ℝ) + 1 ≤ 6 := by
        have : r < 6 := hr
        have : r + 1 ≤ 6 := this
        exact_mod_cast this
      change |s * ((r : ℝ) + 1) - t * (r + 1)| ≤ 6 * |s - t|
      rw [← sub_mul, abs_mul, abs_of_nonneg (by positivity : (0 : ℝ) ≤ r + 1), mul_comm]
      exact mul_le_mul_of_nonneg_right hr' (abs_nonneg _))
    (fun _ _ => 0) (fun _ _ => 0) (fun _ _ _ => rfl)
  refine ⟨e, rfl, rfl, rfl, u, v, acc, C, hm.1, fun dt a hdt h1 h2 h3 => ?_⟩
  obtain ⟨rs, sim, h⟩ := C105_runs e hreg SolverClass.noConfusion (fun _ => ⟨_, rfl⟩) a h3
    { solver with timeStep := dt } store
  exact ⟨rs, sim, h, hC a { solver with timeStep := dt } store rs sim h1 h2 hdt h0 h⟩

end

end Conmech
