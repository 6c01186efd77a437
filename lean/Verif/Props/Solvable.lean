import Mathlib.LinearAlgebra.FiniteDimensional.Basic
import Verif.Spec.Solvable
import Verif.Props.Balance
/-!
C74: the systems of sufficiently supported problems have exactly one solution.

`D` is the set of constrained degrees of freedom, with any prescribed values.
-/
namespace Conmech
open Spec

/-! ### Linear systems -/

section linear
variable {K : Type} [Field K]

/-- A square system without non-trivial homogeneous solutions is uniquely solvable. -/
theorem uniquelySolvable_of_injective (n : ℕ) (S : System K)
    (h : ∀ x : ℕ → K, (∀ r < n, ∑ s ∈ Finset.range n, S.lhs r s * x s = 0) → ∀ r < n, x r = 0) :
    UniquelySolvable n S := by
  let ext : (Fin n → K) → ℕ → K := fun x r => if hr : r < n then x ⟨r, hr⟩ else 0
  let f : (Fin n → K) →ₗ[K] (Fin n → K) :=
    { toFun := fun x r => ∑ s : Fin n, S.lhs r s * x s
      map_add' := fun x y => by
        funext r; simp only [Pi.add_apply, mul_add, Finset.sum_add_distrib]
      map_smul' := fun c x => by
        funext r
        simp only [Pi.smul_apply, smul_eq_mul, RingHom.id_apply, Finset.mul_sum]
        exact Finset.sum_congr rfl fun s _ => by ring }
  have hext : ∀ (x : Fin n → K) (s : Fin n), ext x s = x s := fun x s => dif_pos s.2
  have hsum : ∀ (x : Fin n → K) (r : ℕ),
      ∑ s ∈ Finset.range n, S.lhs r s * ext x s = ∑ s : Fin n, S.lhs r s * x s := by
    intro x r
    rw [Finset.sum_range]
    exact Finset.sum_congr rfl fun s _ => by rw [hext]
  have hinj : Function.Injective f := by
    rw [injective_iff_map_eq_zero]
    intro x hx
    funext s
    have := h (ext x) (fun r hr => by rw [hsum]; exact congrFun hx ⟨r, hr⟩) s s.2
    rwa [hext] at this
  obtain ⟨x, hx⟩ := LinearMap.injective_iff_surjective.1 hinj fun r => S.rhs r
  refine ⟨ext x, fun r hr => ?_, fun y hy r hr => ?_⟩
  · unfold Row
    rw [hsum]
    exact congrFun hx ⟨r, hr⟩
  · have := h (fun r => y r - ext x r) (fun r hr => ?_) r hr
    · exact sub_eq_zero.1 this
    · have e1 := hy r hr
      unfold Row at e1
      have e2 : ∑ s : Fin n, S.lhs r s * x s = S.rhs r := congrFun hx ⟨r, hr⟩
      simp only [mul_sub, Finset.sum_sub_distrib]
      rw [hsum, e1, e2, sub_self]

end linear

section
variable {K : Type} [Field K] [LinearOrder K] [IsStrictOrderedRing K]

omit [LinearOrder K] [IsStrictOrderedRing K] in
/-- C74: a system whose matrix is definite on the fields that vanish on the constrained degrees of
freedom is uniquely solvable after imposing the Dirichlet conditions, whatever the loads and the
prescribed values. -/
theorem C74_definite [DecidableEq K] (N dim : ℕ) (bs : List (CondBoundary K)) (S : System K)
    (D : ℕ → Prop) [DecidablePred D] (g : ℕ → K) (hv : ValidBoundaries N bs)
    (hd : DirichletData N dim bs D g) (hdef : DefiniteOn (dim * N) D S.lhs) :
    UniquelySolvable (dim * N) (applyDirichlet N dim bs S) := by
  refine uniquelySolvable_of_injective _ _ fun x hx => ?_
  have hc := C14_all_at_once_partial N dim bs S D g hv hd
  have hxD : ∀ r < dim * N, D r → x r = 0 := by
    intro r hr hD
    rw [← hx r hr, Finset.sum_eq_single r]
    · rw [(hc r).1 r]; simp [hD]
    · intro s _ hs; rw [(hc r).1 s]; simp [hD, hs.symm]
    · intro h; exact absurd (Finset.mem_range.2 hr) h
  refine hdef x hxD ?_
  refine Finset.sum_eq_zero fun r hr => ?_
  have hr := Finset.mem_range.1 hr
  by_cases hD : D r
  · rw [hxD r hr hD, zero_mul]
  · have : ∑ s ∈ Finset.range (dim * N), S.lhs r s * x s = 0 := by
      rw [← hx r hr]
      refine Finset.sum_congr rfl fun s hs => ?_
      rw [(hc r).1 s]
      by_cases hDs : D s
      · rw [hxD s (Finset.mem_range.1 hs) hDs]; ring
      · rw [if_neg (by tauto)]
    rw [this, mul_zero]

/-! ### Definite operators -/

variable {N : ℕ} {elements : List (List ℕ)} {nodes : ℕ → ℕ → K}

/-- A field without gradient is constant on what elements join. -/
theorem joined_zero {d : ℕ} {fixed : ℕ → Prop} {x : ℕ → K} {G : ℕ → ℕ → K}
    (hG : FieldGradient d elements nodes x G) (h0 : ∀ t < elements.length, ∀ k < d, G t k = 0)
    (hf : ∀ p, fixed p → x p = 0) (p : ℕ) (hp : Joined (d + 1) elements fixed p) : x p = 0 := by
  induction hp with
  | fixed p h => exact hf p h
  | element e he i k hi hk _ ih =>
    obtain ⟨t, ht, hte⟩ := List.getElem_of_mem he
    obtain ⟨c, hc⟩ := hG t ht
    have hget : elements.getD t [] = e := by rw [List.getD_eq_getElem _ _ ht, hte]
    rw [hget] at hc
    have hz : ∀ i < d + 1, x (e.getD i 0) = c := by
      intro i hi
      have := hc i hi
      simp only [valuesOn] at this
      rw [this, Finset.sum_eq_zero fun k hk => by rw [h0 t ht k (Finset.mem_range.1 hk), zero_mul],
        add_zero]
    rw [hz k hk, ← hz i hi, ih]

/-- C74: the Poisson matrix of a triangular mesh is definite if every node is joined to a constrained
one. -/
theorem C74_poisson2 (hv : ValidElements 2 N elements) (hn : Nondegenerate2 elements nodes) (c : K)
    (hc : c ≠ 0) (D : ℕ → Prop) (hj : ∀ p < N, Joined 3 elements (fun q => q < N ∧ D q) p) :
    DefiniteOn N D (poissonMatrix 2 (basicMatrices2 elements nodes).W c) := by
  intro x hx h0 p hp
  obtain ⟨G, hG⟩ := exists_fieldGradient (Plane.allLocal hn) x
  rw [quad_eq_form] at h0
  exact joined_zero hG ((C25_poisson2 hv hn c).2.2.2.2 hc x G hG h0) (fun q hq => hx q hq.1 hq.2) p
    (hj p hp)

/-- C74: the same for a tetrahedral mesh. -/
theorem C74_poisson3 (hv : ValidElements 3 N elements) (hn : Nondegenerate3 elements nodes) (c : K)
    (hc : c ≠ 0) (D : ℕ → Prop) (hj : ∀ p < N, Joined 4 elements (fun q => q < N ∧ D q) p) :
    DefiniteOn N D (poissonMatrix 3 (basicMatrices3 elements nodes).W c) := by
  intro x hx h0 p hp
  obtain ⟨G, hG⟩ := exists_fieldGradient (Space.allLocal hn) x
  rw [quad_eq_form] at h0
  exact joined_zero hG ((C25_poisson3 hv hn c).2.2.2.2 hc x G hG h0) (fun q hq => hx q hq.1 hq.2) p
    (hj p hp)

/-- A triangle without strain two vertices of which do not move. -/
theorem triangle_zero {X : ℕ → ℕ → K} (hX : det2 X ≠ 0) {U : ℕ → ℕ → K} {vals : ℕ → ℕ → K}
    (hg : ∀ a < 2, IsGradient 2 X (vals a) (U a)) (hs : ∀ a < 2, ∀ b < 2, U a b + U b a = 0)
    (i j : ℕ) (hi : i < 3) (hj : j < 3) (hij : i ≠ j) (h1 : ∀ a < 2, vals a i = 0)
    (h2 : ∀ a < 2, vals a j = 0) : ∀ a < 2, ∀ k < 3, vals a k = 0 := by
  obtain ⟨c0, g0⟩ := hg 0 (by omega)
  obtain ⟨c1, g1⟩ := hg 1 (by omega)
  simp only [Finset.sum_range_succ, Finset.sum_range_zero, zero_add] at g0 g1
  have s00 : U 0 0 = 0 := by have := hs 0 (by omega) 0 (by omega); linarith
  have s11 : U 1 1 = 0 := by have := hs 1 (by omega) 1 (by omega); linarith
  have s10 : U 1 0 = - U 0 1 := by have := hs 1 (by omega) 0 (by omega); linarith
  rw [s00] at g0
  rw [s11, s10] at g1
  have a0 := g0 i hi
  have b0 := g0 j hj
  have a1 := g1 i hi
  have b1 := g1 j hj
  rw [h1 0 (by omega)] at a0
  rw [h2 0 (by omega)] at b0
  rw [h1 1 (by omega)] at a1
  rw [h2 1 (by omega)] at b1
  have hw : U 0 1 = 0 := by
    by_contra hne
    have e0 : X i 0 = X j 0 := by
      have : U 0 1 * (X i 0 - X j 0) = 0 := by linear_combination a1 - b1
      exact sub_eq_zero.1 ((mul_eq_zero.1 this).resolve_left hne)
    have e1 : X i 1 = X j 1 := by
      have : U 0 1 * (X i 1 - X j 1) = 0 := by linear_combination b0 - a0
      exact sub_eq_zero.1 ((mul_eq_zero.1 this).resolve_left hne)
    apply hX
    unfold det2
    interval_cases i <;> interval_cases j <;> first | exact absurd rfl hij | (simp only [e0, e1]; ring)
  rw [hw] at g0 g1 a0 a1
  have hc0 : c0 = 0 := by linarith
  have hc1 : c1 = 0 := by linarith
  intro a ha k hk
  interval_cases a
  · rw [g0 k hk, hc0]; ring
  · rw [g1 k hk, hc1]; ring

/-- C74: the elasticity matrix of a triangular mesh (likewise viscosity) is definite if the fixed nodes
hold all nodes. -/
theorem C74_elastic2 (hv : ValidElements 2 N elements) (hn : Nondegenerate2 elements nodes)
    (mu lam : K) (hmu : 0 < mu) (hlam : 0 ≤ lam) (D : ℕ → Prop)
    (hh : ∀ p < N, Held elements (fun q => q < N ∧ D q ∧ D (N + q)) p) :
    DefiniteOn (2 * N) D (Plane.constitutive N (basicMatrices2 elements nodes).W mu lam) := by
  intro u hu h0
  obtain ⟨U, hU⟩ := exists_vectorGradient (N := N) (Plane.allLocal hn) u
  rw [quad_eq_form] at h0
  have hs := C26_definite hv hn mu lam hmu hlam u U hU h0
  have key : ∀ p, Held elements (fun q => q < N ∧ D q ∧ D (N + q)) p →
      ∀ a < 2, u (a * N + p) = 0 := by
    intro p hp
    induction hp with
    | fixed p h =>
      intro a ha
      interval_cases a
      · rw [Nat.zero_mul, Nat.zero_add]; exact hu p (by omega) h.2.1
      · rw [Nat.one_mul]; exact hu _ (by omega) h.2.2
    | triangle e he i j k hi hj hij hk _ _ ih1 ih2 =>
      obtain ⟨t, ht, hte⟩ := List.getElem_of_mem he
      have hget : elements.getD t [] = e := by rw [List.getD_eq_getElem _ _ ht, hte]
      have hX : det2 (vertices nodes e) ≠ 0 := hn e he
      have hg : ∀ a < 2, IsGradient 2 (vertices nodes e) (valuesOn e (component N u a)) (U t a) := by
        intro a ha
        have := hU a ha t ht
        rwa [hget] at this
      intro a ha
      exact triangle_zero hX hg (hs t ht) i j hi hj hij ih1 ih2 a ha k hk
  intro r hr
  have hN : 0 < N := by omega
  have hmod : r % N < N := Nat.mod_lt _ hN
  have := key (r % N) (hh _ hmod) (r / N) (by rw [Nat.div_lt_iff_lt_mul hN]; omega)
  rwa [Nat.div_add_mod'] at this

/-- C74: the mass matrix of a triangular mesh is definite if every node belongs to a triangle. -/
theorem C74_mass2 (hv : ValidElements 2 N elements) (hn : Nondegenerate2 elements nodes)
    (density : K) (hdensity : 0 < density) (hall : ∀ p < N, ∃ e ∈ elements, p ∈ e) (D : ℕ → Prop) :
    DefiniteOn (2 * N) D (Plane.acceleration N (basicMatrices2 elements nodes).U density) ∧
    DefiniteOn N D (Plane.acceleration N (basicMatrices2 elements nodes).U density) := by
  obtain ⟨hs, hp, hdef⟩ := C23_mass2 hv hn
  have hdef := hdef hall
  constructor
  · intro x _ h0 r hr
    rw [quad_eq_form, acceleration_form] at h0
    have h1 := (mul_eq_zero.1 h0).resolve_left hdensity.ne'
    have p0 := hp (component N x 0)
    have p1 := hp (component N x 1)
    have hN : 0 < N := by omega
    have hmod : r % N < N := Nat.mod_lt _ hN
    have hlt : r / N < 2 := (Nat.div_lt_iff_lt_mul hN).2 hr
    have hcomp : ∀ a < 2, component N x a (r % N) = 0 := by
      intro a ha
      interval_cases a
      · exact hdef (component N x 0) (by linarith) _ hmod
      · exact hdef (component N x 1) (by linarith) _ hmod
    have := hcomp _ hlt
    simp only [component] at this
    rwa [Nat.div_add_mod'] at this
  · intro x _ h0 r hr
    have hblock : ∀ r < N, ∀ s < N, Plane.acceleration N (basicMatrices2 elements nodes).U density r s =
        density * (basicMatrices2 elements nodes).U r s := by
      intro r hr s hs'
      simp only [Plane.acceleration, block, Nat.div_eq_of_lt hr, Nat.div_eq_of_lt hs',
        Nat.mod_eq_of_lt hr, Nat.mod_eq_of_lt hs']
    rw [quad_eq_form, form_congr x x hblock, form_mul] at h0
    exact hdef x ((mul_eq_zero.1 h0).resolve_left hdensity.ne') r hr

/-! ### Statements -/

/-- `quad` is linear in the matrix. -/
theorem quad_add_smul (n : ℕ) (A B : ℕ → ℕ → K) (s t : K) (x : ℕ → K) :
    quad n (fun r q => s * A r q + t * B r q) x = s * quad n A x + t * quad n B x := by
  rw [quad_eq_form, quad_eq_form, quad_eq_form, ← form_mul, ← form_mul, ← form_add]

/-- A sum of nonnegative forms one of which is definite. -/
theorem definiteOn_add {n : ℕ} {D : ℕ → Prop} {A B : ℕ → ℕ → K} (hA : Dissipates n A)
    (hB : Dissipates n B) (s t : K) (hs : 0 < s) (ht : 0 < t) (h : DefiniteOn n D A ∨ DefiniteOn n D B) :
    DefiniteOn n D fun r q => s * A r q + t * B r q := by
  intro x hx h0
  rw [quad_add_smul] at h0
  have h1 := mul_nonneg hs.le (hA.nonneg x)
  have h2 := mul_nonneg ht.le (hB.nonneg x)
  rcases h with h | h
  · exact h x hx ((mul_eq_zero.1 (by linarith : s * quad n A x = 0)).resolve_left hs.ne')
  · exact h x hx ((mul_eq_zero.1 (by linarith : t * quad n B x = 0)).resolve_left ht.ne')

theorem dissipates_add {n : ℕ} {A B : ℕ → ℕ → K} (hA : Dissipates n A)
    (hB : Dissipates n B) (s t : K) (hs : 0 < s) (ht : 0 < t) :
    Dissipates n fun r q => s * A r q + t * B r q :=
  ⟨fun x => by
    rw [quad_add_smul]
    exact add_nonneg (mul_nonneg hs.le (hA.nonneg x)) (mul_nonneg ht.le (hB.nonneg x))⟩

/-- What a statement needs to be definite: the left hand sides are sums of operators. -/
theorem lhs_definite (ops : Operators K) (var : Variables K) (D : ℕ → Prop) (dt : K) (hdt : 0 < dt)
    (hvar : var.timeStep = some dt) (kind : StatementKind) (n : ℕ)
    (hpos : match kind with
      | .staticPoisson => DefiniteOn n D ops.poisson
      | .wave => Dissipates n ops.acceleration ∧ Dissipates n ops.poisson ∧
          (DefiniteOn n D ops.acceleration ∨ DefiniteOn n D ops.poisson)
      | .staticDisplacement => DefiniteOn n D ops.elasticity
      | .quasistaticVelocity | .quasistaticVelocityWithPiezoelectric =>
          Dissipates n ops.viscosity ∧ Dissipates n ops.elasticity ∧
          (DefiniteOn n D ops.viscosity ∨ DefiniteOn n D ops.elasticity)
      | .dynamicVelocity | .dynamicVelocityWithTemperature | .dynamicVelocityWithPiezoelectric =>
          Dissipates n ops.viscosity ∧ Dissipates n ops.acceleration ∧ Dissipates n ops.elasticity ∧
          (DefiniteOn n D ops.viscosity ∨ DefiniteOn n D ops.acceleration ∨ DefiniteOn n D ops.elasticity)
      | .temperature => Dissipates n ops.acceleration ∧ Dissipates n ops.thermalConductivity ∧
          (DefiniteOn n D ops.acceleration ∨ DefiniteOn n D ops.thermalConductivity)
      | .piezoelectric => DefiniteOn n D ops.permittivity
      | .quasistaticRelaxation => ∀ R, ops.relaxation var.time = .ok R →
          Dissipates n ops.elasticity ∧ Dissipates n R ∧
          (DefiniteOn n D ops.elasticity ∨ DefiniteOn n D R))
    (lhs : ℕ → ℕ → K) (h : updateLhs ops var kind = .ok lhs) : DefiniteOn n D lhs := by
  have dyn : Dissipates n ops.viscosity ∧ Dissipates n ops.acceleration ∧ Dissipates n ops.elasticity ∧
      (DefiniteOn n D ops.viscosity ∨ DefiniteOn n D ops.acceleration ∨ DefiniteOn n D ops.elasticity) →
      dynamicLhs ops var = .ok lhs → DefiniteOn n D lhs := by
    rintro ⟨h1, h2, h3, h4⟩ h
    simp only [dynamicLhs, hvar, required, bind, Except.bind, pure, Except.pure, Except.ok.injEq] at h
    have e : lhs = fun r s => 1 * (1 * ops.viscosity r s + 1 / dt * ops.acceleration r s) +
        dt * ops.elasticity r s := by rw [← h]; funext r s; ring
    rw [e]
    have hd' : 0 < 1 / dt := by positivity
    rcases h4 with h4 | h4 | h4
    · exact definiteOn_add (dissipates_add h1 h2 1 _ one_pos hd') h3 1 dt one_pos hdt
        (Or.inl (definiteOn_add h1 h2 1 _ one_pos hd' (Or.inl h4)))
    · exact definiteOn_add (dissipates_add h1 h2 1 _ one_pos hd') h3 1 dt one_pos hdt
        (Or.inl (definiteOn_add h1 h2 1 _ one_pos hd' (Or.inr h4)))
    · exact definiteOn_add (dissipates_add h1 h2 1 _ one_pos hd') h3 1 dt one_pos hdt (Or.inr h4)
  have qua : Dissipates n ops.viscosity ∧ Dissipates n ops.elasticity ∧
      (DefiniteOn n D ops.viscosity ∨ DefiniteOn n D ops.elasticity) →
      quasistaticLhs ops var = .ok lhs → DefiniteOn n D lhs := by
    rintro ⟨h1, h2, h3⟩ h
    simp only [quasistaticLhs, hvar, required, bind, Except.bind, pure, Except.pure, Except.ok.injEq] at h
    have e : lhs = fun r s => 1 * ops.viscosity r s + dt * ops.elasticity r s := by
      rw [← h]; funext r s; ring
    rw [e]
    exact definiteOn_add h1 h2 1 dt one_pos hdt h3
  have hd' : 0 < 1 / dt := by positivity
  cases kind with
  | staticPoisson => obtain rfl : ops.poisson = lhs := Except.ok.inj h; exact hpos
  | staticDisplacement => obtain rfl : ops.elasticity = lhs := Except.ok.inj h; exact hpos
  | piezoelectric => obtain rfl : ops.permittivity = lhs := Except.ok.inj h; exact hpos
  | quasistaticVelocity => exact qua hpos h
  | quasistaticVelocityWithPiezoelectric => exact qua hpos h
  | dynamicVelocity => exact dyn hpos h
  | dynamicVelocityWithTemperature => exact dyn hpos h
  | dynamicVelocityWithPiezoelectric => exact dyn hpos h
  | wave =>
    obtain ⟨h1, h2, h3⟩ := hpos
    simp only [updateLhs, hvar, required, bind, Except.bind, pure, Except.pure, Except.ok.injEq] at h
    have e : lhs = fun r s => 1 / dt * ops.acceleration r s + dt * ops.poisson r s := by
      rw [← h]; funext r s; ring
    rw [e]
    exact definiteOn_add h1 h2 _ dt hd' hdt h3
  | temperature =>
    obtain ⟨h1, h2, h3⟩ := hpos
    simp only [updateLhs, hvar, required, bind, Except.bind, pure, Except.pure, Except.ok.injEq] at h
    have e : lhs = fun r s => 1 / dt * ops.acceleration r s + 1 * ops.thermalConductivity r s := by
      rw [← h]; funext r s; ring
    rw [e]
    exact definiteOn_add h1 h2 _ 1 hd' one_pos h3
  | quasistaticRelaxation =>
    simp only [updateLhs, hvar, required, bind, Except.bind, pure, Except.pure] at h
    cases hR : ops.relaxation var.time with
    | error err => rw [hR] at h; cases h
    | ok R =>
      rw [hR] at h
      obtain ⟨h1, h2, h3⟩ := hpos R hR
      have e : lhs = fun r s => 1 * ops.elasticity r s + dt * R r s := by
        rw [← Except.ok.inj h]; funext r s; ring
      rw [e]
      exact definiteOn_add h1 h2 1 dt one_pos hdt h3

omit [IsStrictOrderedRing K] in
/-- The system a statement produces is uniquely solvable if its left hand side is definite. -/
theorem update_solvable (kind : StatementKind) (ops : Operators K) (bs : List (CondBoundary K))
    (var : Variables K) (S : System K) (dim : ℕ) (hdim : kind.dimensionIn ops.dimension = dim)
    (D : ℕ → Prop) [DecidablePred D] (g : ℕ → K) (hv : ValidBoundaries ops.nodesCount bs)
    (hd : DirichletData ops.nodesCount dim bs D g)
    (hdef : ∀ lhs, updateLhs ops var kind = .ok lhs → DefiniteOn (dim * ops.nodesCount) D lhs)
    (h : kind.update ops bs var = .ok S) : UniquelySolvable (dim * ops.nodesCount) S := by
  obtain ⟨lhs, rhs, h1, -, h3⟩ := update_eliminated _ _ _ _ _ h
  rw [hdim] at h3
  rw [h3]
  exact C74_definite _ _ _ _ D g hv hd (hdef lhs h1)

/-- C74: elasticity on a triangular mesh. Every system of dynamic problems is uniquely solvable; those
of static and quasistatic problems are if the fixed nodes hold all nodes. -/
theorem C74_elasticity2 (hv : ValidElements 2 N elements) (hn : Nondegenerate2 elements nodes)
    (hall : ∀ p < N, ∃ e ∈ elements, p ∈ e) (density mu lam theta zeta : K) (hdensity : 0 < density)
    (hmu : 0 < mu) (hlam : 0 ≤ lam) (htheta : 0 ≤ theta) (hzeta : 0 ≤ zeta)
    (ops : Operators K) (hN : ops.nodesCount = N) (hdim : ops.dimension = 2)
    (hacc : ops.acceleration = Plane.acceleration N (basicMatrices2 elements nodes).U density)
    (hel : ops.elasticity = Plane.constitutive N (basicMatrices2 elements nodes).W mu lam)
    (hvis : ops.viscosity = Plane.constitutive N (basicMatrices2 elements nodes).W theta zeta)
    (bs : List (CondBoundary K)) (D : ℕ → Prop) [DecidablePred D] (g : ℕ → K)
    (hb : ValidBoundaries N bs) (hd : DirichletData N 2 bs D g)
    (var : Variables K) (dt : K) (hdt : 0 < dt) (hvar : var.timeStep = some dt) (S : System K) :
    (StatementKind.dynamicVelocity.update ops bs var = .ok S → UniquelySolvable (2 * N) S) ∧
    ((∀ p < N, Held elements (fun q => q < N ∧ D q ∧ D (N + q)) p) →
      (StatementKind.staticDisplacement.update ops bs var = .ok S → UniquelySolvable (2 * N) S) ∧
      (StatementKind.quasistaticVelocity.update ops bs var = .ok S → UniquelySolvable (2 * N) S)) := by
  subst hN
  have hnel := (C71_operators2 hv hn density mu lam theta zeta 1 hdensity.le hmu.le hlam htheta hzeta)
  obtain ⟨o1, o2, o3, -, -⟩ := hnel
  rw [← hacc] at o1
  rw [← hel] at o2
  rw [← hvis] at o3
  refine ⟨fun h => ?_, fun hh => ⟨fun h => ?_, fun h => ?_⟩⟩
  · refine update_solvable _ ops bs var S 2 rfl D g hb hd (fun lhs hl => ?_) h
    refine lhs_definite ops var D dt hdt hvar .dynamicVelocity _ ⟨o3, ⟨o1.nonneg⟩, ⟨o2.nonneg⟩, ?_⟩ lhs hl
    rw [hacc]
    exact Or.inr (Or.inl (C74_mass2 hv hn density hdensity hall D).1)
  · refine update_solvable .staticDisplacement ops bs var S 2 hdim D g hb hd (fun lhs hl => ?_) h
    refine lhs_definite ops var D dt hdt hvar .staticDisplacement _ ?_ lhs hl
    change DefiniteOn _ D ops.elasticity
    rw [hel]
    exact C74_elastic2 hv hn mu lam hmu hlam D hh
  · refine update_solvable _ ops bs var S 2 rfl D g hb hd (fun lhs hl => ?_) h
    refine lhs_definite ops var D dt hdt hvar .quasistaticVelocity _ ⟨o3, ⟨o2.nonneg⟩, ?_⟩ lhs hl
    rw [hel]
    exact Or.inr (C74_elastic2 hv hn mu lam hmu hlam D hh)

/-- C74: scalar problems on a triangular mesh. Every system of wave problems is uniquely solvable;
those of Poisson problems are if every node is joined to a constrained one. -/
theorem C74_scalar2 (hv : ValidElements 2 N elements) (hn : Nondegenerate2 elements nodes)
    (hall : ∀ p < N, ∃ e ∈ elements, p ∈ e) (density c : K) (hdensity : 0 < density) (hc : c ≠ 0)
    (ops : Operators K) (hN : ops.nodesCount = N)
    (hacc : ops.acceleration = Plane.acceleration N (basicMatrices2 elements nodes).U density)
    (hpo : ops.poisson = poissonMatrix 2 (basicMatrices2 elements nodes).W c)
    (bs : List (CondBoundary K)) (D : ℕ → Prop) [DecidablePred D] (g : ℕ → K)
    (hb : ValidBoundaries N bs) (hd : DirichletData N 1 bs D g)
    (var : Variables K) (dt : K) (hdt : 0 < dt) (hvar : var.timeStep = some dt) (S : System K) :
    (StatementKind.wave.update ops bs var = .ok S → UniquelySolvable N S) ∧
    ((∀ p < N, Joined 3 elements (fun q => q < N ∧ D q) p) →
      StatementKind.staticPoisson.update ops bs var = .ok S → UniquelySolvable N S) := by
  subst hN
  obtain ⟨-, -, -, o4, o5⟩ := C71_operators2 hv hn density 1 1 1 1 c hdensity.le zero_le_one zero_le_one
    zero_le_one zero_le_one
  rw [← hacc] at o4
  rw [← hpo] at o5
  have h1 : 1 * ops.nodesCount = ops.nodesCount := Nat.one_mul _
  refine ⟨fun h => ?_, fun hj h => ?_⟩
  · rw [← h1]
    refine update_solvable _ ops bs var S 1 rfl D g hb hd (fun lhs hl => ?_) h
    refine lhs_definite ops var D dt hdt hvar .wave _ ?_ lhs hl
    change Dissipates _ _ ∧ Dissipates _ _ ∧ _
    rw [h1]
    refine ⟨⟨o4.nonneg⟩, ⟨o5.nonneg⟩, Or.inl ?_⟩
    rw [hacc]
    exact (C74_mass2 hv hn density hdensity hall D).2
  · rw [← h1]
    refine update_solvable _ ops bs var S 1 rfl D g hb hd (fun lhs hl => ?_) h
    refine lhs_definite ops var D dt hdt hvar .staticPoisson _ ?_ lhs hl
    change DefiniteOn _ D ops.poisson
    rw [h1, hpo]
    exact C74_poisson2 hv hn c hc D hj

/-- C74: without any support, static problems are never uniquely solvable. -/
theorem C74_unsupported (hv : ValidElements 2 N elements) (hn : Nondegenerate2 elements nodes)
    (hN : 0 < N) (mu lam c : K) (rhs : ℕ → K) :
    ¬ UniquelySolvable (2 * N)
      (applyDirichlet N 2 [] ⟨Plane.constitutive N (basicMatrices2 elements nodes).W mu lam, rhs⟩) ∧
    ¬ UniquelySolvable N
      (applyDirichlet N 1 [] ⟨poissonMatrix 2 (basicMatrices2 elements nodes).W c, rhs⟩) := by
  have key : ∀ (n : ℕ) (A : ℕ → ℕ → K), 0 < n → (∀ r < n, act n A (fun _ => 1) r = 0) →
      ¬ UniquelySolvable n ⟨A, rhs⟩ := by
    rintro n A hn0 hA ⟨x, hx, hun⟩
    have := hun (fun r => x r + 1) (fun r hr => ?_) 0 hn0
    · exact one_ne_zero (add_eq_left.1 this)
    · have e1 := hx r hr
      have e2 := hA r hr
      unfold Row at e1 ⊢
      unfold act at e2
      simp only [mul_add, Finset.sum_add_distrib]
      simp only at e1 e2
      rw [e1, e2, add_zero]
  refine ⟨key _ _ (by omega) fun r hr => ?_, key _ _ hN fun r hr => ?_⟩
  · exact C26_rigid hv hn mu lam _ ⟨fun _ => 1, fun _ _ => 0, by simp, by simp⟩ r hr
  · exact (C25_poisson2 hv hn c).2.2.2.1 1 r hr

end
/-! ### A problem that meets the hypotheses -/

/-- The operators of a quadrilateral of two triangles. -/
def quadrilateralOps : Operators ℚ :=
  { exampleOps with
    nodesCount := 4
    acceleration := Plane.acceleration 4 (basicMatrices2 exampleMesh2 exampleNodes2).U 3
    elasticity := Plane.constitutive 4 (basicMatrices2 exampleMesh2 exampleNodes2).W 2 1
    viscosity := Plane.constitutive 4 (basicMatrices2 exampleMesh2 exampleNodes2).W 1 0
    poisson := poissonMatrix 2 (basicMatrices2 exampleMesh2 exampleNodes2).W (1 / 2)
    force := fun _ r => r + 1 }

/-- Nodes 0 and 1 hold the quadrilateral, and one node joins all. -/
example : (∀ p < 4, Held exampleMesh2 (fun q => q < 4 ∧ q < 2) p) ∧
    ∀ p < 4, Joined 3 exampleMesh2 (fun q => q < 4 ∧ q < 1) p := by
  have h0 : Held exampleMesh2 (fun q => q < 4 ∧ q < 2) 0 := .fixed 0 (by decide)
  have h1 : Held exampleMesh2 (fun q => q < 4 ∧ q < 2) 1 := .fixed 1 (by decide)
  have h2 : Held exampleMesh2 (fun q => q < 4 ∧ q < 2) 2 :=
    .triangle [0, 1, 2] (by decide) 0 1 2 (by decide) (by decide) (by decide) (by decide) h0 h1
  have h3 : Held exampleMesh2 (fun q => q < 4 ∧ q < 2) 3 :=
    .triangle [3, 2, 1] (by decide) 1 2 0 (by decide) (by decide) (by decide) (by decide) h2 h1
  have j0 : Joined 3 exampleMesh2 (fun q => q < 4 ∧ q < 1) 0 := .fixed 0 (by decide)
  have j1 : Joined 3 exampleMesh2 (fun q => q < 4 ∧ q < 1) 1 :=
    .element [0, 1, 2] (by decide) 0 1 (by decide) (by decide) j0
  have j2 : Joined 3 exampleMesh2 (fun q => q < 4 ∧ q < 1) 2 :=
    .element [0, 1, 2] (by decide) 0 2 (by decide) (by decide) j0
  have j3 : Joined 3 exampleMesh2 (fun q => q < 4 ∧ q < 1) 3 :=
    .element [3, 2, 1] (by decide) 2 0 (by decide) (by decide) j1
  constructor <;> intro p hp <;> interval_cases p <;> assumption

open Classical in
/-- Any solution of the system. -/
noncomputable def exactSolution (n : ℕ) (S : System ℚ) : ℕ → ℚ :=
  if h : ∃ x, Solves n S x then Classical.choose h else fun _ => 0

/-- The free quadrilateral, solved exactly. -/
noncomputable def quadrilateralEngine : Engine ℚ where
  grid := { nodesCount := 4, dimension := 2, nodes := exampleNodes2 }
  cls := .dynamicSchur
  kind := .dynamicVelocity
  ops := quadrilateralOps
  boundaries := []
  solve := fun s _ => exactSolution (2 * 4) s.system

/-- The hypotheses of C72 are met by a free body with every rotation and translation. -/
example : ExactSolve quadrilateralEngine (2 * 4) (1 / 2) ∧
    (∀ z, RigidMotion 2 4 exampleNodes2 z → Unresisted (2 * 4) quadrilateralEngine.ops.viscosity z ∧
      Unresisted (2 * 4) quadrilateralEngine.ops.elasticity z) ∧
    DirichletData 4 2 quadrilateralEngine.boundaries (fun _ => False) fun _ => 0 := by
  have hd : DirichletData 4 2 quadrilateralEngine.boundaries (fun _ => False) fun _ => 0 := by
    constructor
    · intro x
      refine ⟨False.elim, ?_⟩
      rintro ⟨v, b, hb, -⟩
      cases hb
    · rintro x v ⟨b, hb, -⟩
      cases hb
  refine ⟨fun S guess var hvar h => ?_, fun z hz => ⟨?_, ?_⟩, hd⟩
  · have hb : ValidBoundaries 4 quadrilateralEngine.boundaries := by
      intro b hb; cases hb
    obtain ⟨x, hx, -⟩ := (C74_elasticity2 exampleMesh2_valid exampleMesh2_nondegenerate (by decide)
      3 2 1 1 0 (by norm_num) (by norm_num) (by norm_num) (by norm_num) le_rfl quadrilateralOps rfl rfl
      rfl rfl rfl _ (fun _ => False) (fun _ => 0) hb hd var (1 / 2) (by norm_num) hvar S.system).1 h
    have hex : ∃ x, Solves (2 * 4) S.system x := ⟨x, hx⟩
    change Solves (2 * 4) S.system (exactSolution (2 * 4) S.system)
    unfold exactSolution
    rw [dif_pos hex]
    exact Classical.choose_spec hex
  · exact (C72_rigid2 exampleMesh2_valid exampleMesh2_nondegenerate 1 0 1 z).1 hz
  · exact (C72_rigid2 exampleMesh2_valid exampleMesh2_nondegenerate 2 1 1 z).1 hz

/-- The hypotheses of C73 are met: the diagonal body under its loads at rest. -/
example : AtRest 4 (fun r => r < 2 * 2 ∧ r % 2 = 1) diagonalOps.elasticity (diagonalOps.force 0)
    (fun r => (r + 1) / 2) (fun _ => 0) ∧
    DefiniteOn 4 (fun r => r < 2 * 2 ∧ r % 2 = 1) diagonalOps.acceleration ∧
    DefiniteOn 4 (fun r => r < 2 * 2 ∧ r % 2 = 1) diagonalOps.viscosity := by
  have key : ∀ c : ℚ, 0 < c → DefiniteOn 4 (fun r => r < 2 * 2 ∧ r % 2 = 1)
      (fun r s : ℕ => if r = s then c else 0) := by
    intro c hc x _ h0 r hr
    have hq : quad 4 (fun r s : ℕ => if r = s then c else 0) x =
        ∑ r ∈ Finset.range 4, c * (x r * x r) := by
      unfold quad
      refine Finset.sum_congr rfl fun r hr => ?_
      simp only [ite_mul, zero_mul]
      rw [Finset.sum_ite_eq, if_pos hr]
      ring
    rw [hq, Finset.sum_eq_zero_iff_of_nonneg fun r _ => mul_nonneg hc.le (mul_self_nonneg _)] at h0
    have := h0 r (Finset.mem_range.2 hr)
    exact mul_self_eq_zero.1 ((mul_eq_zero.1 this).resolve_left hc.ne')
  refine ⟨⟨fun r hr _ => ?_, fun _ _ => rfl⟩, key 1 one_pos, key 3 (by norm_num)⟩
  simp only [act, diagonalOps, ite_mul, zero_mul]
  rw [Finset.sum_ite_eq, if_pos (Finset.mem_range.2 hr)]
  ring

end Conmech
