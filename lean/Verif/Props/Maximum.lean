import Mathlib.Tactic.LinearCombination
import Mathlib.Tactic.IntervalCases
import Verif.Spec.Maximum
import Verif.Props.Patch
import Verif.Props.HeatCharge
import Verif.Props.CrossBoundary
/-!
C98: the maximum principle. On triangular meshes without obtuse angles the temperature returned for a
Poisson problem stays between the prescribed values, depends monotonically on sources and prescribed
values, and in thermal runs stays between the initial and the prescribed temperatures, provided the time
step is not too short.
-/
namespace Conmech
open Spec

section
variable {K : Type} [Field K] [LinearOrder K] [IsStrictOrderedRing K]
variable {N : ℕ} {elements : List (List ℕ)} {nodes : ℕ → ℕ → K}

/-- What a field exceeds zero by. -/
def excess (w : ℕ → K) : ℕ → K := fun i => max (w i) 0

/-- Cutting a field off at zero does not raise the form. -/
def Truncates (n : ℕ) (A : ℕ → ℕ → K) : Prop :=
  ∀ w, form n n A (excess w) (excess w) ≤ form n n A (excess w) w

theorem excess_self (a : K) : max a 0 * max a 0 = max a 0 * a := by
  rcases le_total a 0 with h | h
  · rw [max_eq_right h]; ring
  · rw [max_eq_left h]

theorem excess_diff (a b : K) : (max a 0 - max b 0) * (max a 0 - max b 0) ≤ (max a 0 - max b 0) * (a - b) := by
  rcases le_total a 0 with h | h <;> rcases le_total b 0 with h' | h' <;>
    simp only [max_eq_left, max_eq_right, h, h'] <;> nlinarith

theorem form_eq_act (n : ℕ) (A : ℕ → ℕ → K) (x y : ℕ → K) :
    form n n A x y = ∑ r ∈ Finset.range n, x r * act n A y r := by
  unfold form act
  refine Finset.sum_congr rfl fun r _ => ?_
  rw [Finset.mul_sum]
  exact Finset.sum_congr rfl fun s _ => by ring

/-- The comparison principle. -/
theorem comparison {n : ℕ} {D : ℕ → Prop} {A : ℕ → ℕ → K} (hd : DefiniteOn n D A)
    (hp : ∀ x, 0 ≤ form n n A x x) (ht : Truncates n A) (w : ℕ → K) (hD : ∀ r < n, D r → w r ≤ 0)
    (ha : ∀ r < n, ¬ D r → act n A w r ≤ 0) : ∀ r < n, w r ≤ 0 := by
  have h0 : form n n A (excess w) w ≤ 0 := by
    rw [form_eq_act]
    refine Finset.sum_nonpos fun r hr => ?_
    have hr := Finset.mem_range.1 hr
    by_cases h : D r
    · simp only [excess, max_eq_right (hD r hr h), zero_mul, le_refl]
    · exact mul_nonpos_of_nonneg_of_nonpos (le_max_right _ _) (ha r hr h)
  have h1 := le_antisymm ((ht w).trans h0) (hp _)
  rw [← quad_eq_form] at h1
  intro r hr
  have := hd (excess w) (fun r hr h => max_eq_right (hD r hr h)) h1 r hr
  exact (le_max_left _ _).trans this.le

/-- The product of two gradients on a triangle, written with the differences along its edges and the
angles opposite to them. -/
theorem gradient_product {X : ℕ → ℕ → K} {x y G H : ℕ → K} (hx : IsGradient 2 X x G)
    (hy : IsGradient 2 X y H) :
    det2 X ^ 2 * (G 0 * H 0 + G 1 * H 1) =
      corner X 0 1 2 * ((x 1 - x 2) * (y 1 - y 2)) + corner X 1 2 0 * ((x 2 - x 0) * (y 2 - y 0)) +
      corner X 2 0 1 * ((x 0 - x 1) * (y 0 - y 1)) := by
  obtain ⟨a, hx⟩ := hx
  obtain ⟨b, hy⟩ := hy
  simp only [Finset.sum_range_succ, Finset.sum_range_zero, zero_add] at hx hy
  rw [hx 0 (by omega), hx 1 (by omega), hx 2 (by omega), hy 0 (by omega), hy 1 (by omega),
    hy 2 (by omega)]
  unfold det2 corner
  ring

/-- Cutting off on one triangle: `k` times the Dirichlet form plus `m` times the mass. -/
theorem truncates_local {X : ℕ → ℕ → K} (hX : det2 X ≠ 0) (k m : K)
    (h0 : m * area X ^ 2 ≤ 3 * k * corner X 0 1 2) (h1 : m * area X ^ 2 ≤ 3 * k * corner X 1 2 0)
    (h2 : m * area X ^ 2 ≤ 3 * k * corner X 2 0 1) {x G H : ℕ → K} (hx : IsGradient 2 X x G)
    (hy : IsGradient 2 X (excess x) H) :
    let y := excess x
    0 ≤ k * (area X * (H 0 * G 0 + H 1 * G 1)) - k * (area X * (H 0 * H 0 + H 1 * H 1)) +
      (m * (area X / 12 * ((y 0 + y 1 + y 2) * (x 0 + x 1 + x 2) +
        (y 0 * x 0 + y 1 * x 1 + y 2 * x 2))) -
      m * (area X / 12 * ((y 0 + y 1 + y 2) * (y 0 + y 1 + y 2) +
        (y 0 * y 0 + y 1 * y 1 + y 2 * y 2)))) := by
  intro y
  have ha : 0 < area X := by unfold area; have := abs_pos.2 hX; positivity
  have hd : det2 X ^ 2 = 4 * area X ^ 2 := by unfold area; rw [div_pow, sq_abs]; ring
  have e1 := gradient_product hy hx
  have e2 := gradient_product hy hy
  rw [hd] at e1 e2
  have s0 : y 0 * y 0 = y 0 * x 0 := excess_self _
  have s1 : y 1 * y 1 = y 1 * x 1 := excess_self _
  have s2 : y 2 * y 2 = y 2 * x 2 := excess_self _
  have d0 : 0 ≤ (y 1 - y 2) * (x 1 - x 2) - (y 1 - y 2) * (y 1 - y 2) := sub_nonneg.2 (excess_diff _ _)
  have d1 : 0 ≤ (y 2 - y 0) * (x 2 - x 0) - (y 2 - y 0) * (y 2 - y 0) := sub_nonneg.2 (excess_diff _ _)
  have d2 : 0 ≤ (y 0 - y 1) * (x 0 - x 1) - (y 0 - y 1) * (y 0 - y 1) := sub_nonneg.2 (excess_diff _ _)
  have p0 := mul_nonneg (sub_nonneg.2 h0) d0
  have p1 := mul_nonneg (sub_nonneg.2 h1) d1
  have p2 := mul_nonneg (sub_nonneg.2 h2) d2
  change _ = corner X 0 1 2 * ((y 1 - y 2) * (x 1 - x 2)) + corner X 1 2 0 * ((y 2 - y 0) * (x 2 - x 0)) +
    corner X 2 0 1 * ((y 0 - y 1) * (x 0 - x 1)) at e1
  change _ = corner X 0 1 2 * ((y 1 - y 2) * (y 1 - y 2)) + corner X 1 2 0 * ((y 2 - y 0) * (y 2 - y 0)) +
    corner X 2 0 1 * ((y 0 - y 1) * (y 0 - y 1)) at e2
  refine (mul_nonneg_iff_of_pos_left (show 0 < 12 * area X by positivity)).1
    (le_of_le_of_eq (add_nonneg (add_nonneg p0 p1) p2) ?_)
  linear_combination 3 * k * e2 - 3 * k * e1 + 4 * m * area X ^ 2 * (s0 + s1 + s2)

/-- A matrix made of the Dirichlet form and the mass. -/
structure Parabolic (N : ℕ) (elements : List (List ℕ)) (nodes : ℕ → ℕ → K) (k m : K)
    (A : ℕ → ℕ → K) : Prop where
  entries : ∀ r < N, ∀ s < N, A r s = k * poissonMatrix 2 (basicMatrices2 elements nodes).W 1 r s +
    m * (basicMatrices2 elements nodes).U r s

theorem Parabolic.form {k m : K} {A : ℕ → ℕ → K} (h : Parabolic N elements nodes k m A) (x y : ℕ → K) :
    form N N A x y = k * form N N (poissonMatrix 2 (basicMatrices2 elements nodes).W 1) x y +
      m * form N N (basicMatrices2 elements nodes).U x y := by
  rw [← form_mul, ← form_mul, ← form_add]
  unfold Spec.form
  refine Finset.sum_congr rfl fun p hp => Finset.sum_congr rfl fun q hq => ?_
  rw [h.entries p (Finset.mem_range.1 hp) q (Finset.mem_range.1 hq)]

/-- Cutting off on a mesh. -/
theorem Parabolic.truncates {k m : K} {A : ℕ → ℕ → K} (h : Parabolic N elements nodes k m A)
    (hv : ValidElements 2 N elements) (hn : Nondegenerate2 elements nodes)
    (hc : ∀ e ∈ elements, m * area (vertices nodes e) ^ 2 ≤ 3 * k * corner (vertices nodes e) 0 1 2 ∧
      m * area (vertices nodes e) ^ 2 ≤ 3 * k * corner (vertices nodes e) 1 2 0 ∧
      m * area (vertices nodes e) ^ 2 ≤ 3 * k * corner (vertices nodes e) 2 0 1) : Truncates N A := by
  intro w
  obtain ⟨G, hG⟩ := exists_fieldGradient (Plane.allLocal hn) w
  obtain ⟨H, hH⟩ := exists_fieldGradient (Plane.allLocal hn) (excess w)
  have hp : ∀ {x y X Y}, FieldGradient 2 elements nodes x X → FieldGradient 2 elements nodes y Y →
      Spec.form N N (poissonMatrix 2 (basicMatrices2 elements nodes).W 1) x y =
        1 ^ 2 * dirichletEnergy 2 area elements nodes X Y := fun hX hY =>
    poisson_energy (W := (basicMatrices2 elements nodes).W) rfl hv (Plane.allLocal hn) 1 hX hY
  rw [h.form, h.form, hp hH hG, hp hH hH, C23_mass_form2 hv hn, C23_mass_form2 hv hn]
  simp only [one_pow, one_mul, dirichletEnergy, sumElements]
  rw [Finset.mul_sum, Finset.mul_sum, Finset.mul_sum, Finset.mul_sum, ← Finset.sum_add_distrib,
    ← Finset.sum_add_distrib]
  refine Finset.sum_le_sum fun t ht => ?_
  have ht := Finset.mem_range.1 ht
  have he := getD_mem ht
  obtain ⟨h0, h1, h2⟩ := hc _ he
  have := truncates_local (hn _ he) k m h0 h1 h2 (hG t ht) (hH t ht)
  simp only [Finset.sum_range_succ, Finset.sum_range_zero, zero_add]
  rw [← sub_nonneg]
  refine le_of_le_of_eq this ?_
  simp only [excess, valuesOn]
  ring

theorem poisson_parabolic (c : K) :
    Parabolic N elements nodes (c ^ 2) 0 (poissonMatrix 2 (basicMatrices2 elements nodes).W c) :=
  ⟨fun r _ s _ => by unfold poissonMatrix; ring⟩

/-- C98: on a triangular mesh without obtuse angles Poisson's equation satisfies a comparison principle:
a field that is not above another where both are prescribed and whose sources are not stronger is nowhere
above it. -/
theorem C98_comparison (hv : ValidElements 2 N elements) (hn : Nondegenerate2 elements nodes)
    (ho : NonObtuse elements nodes) (c : K) (hc : c ≠ 0) (D : ℕ → Prop)
    (hj : ∀ p < N, Joined 3 elements (fun q => q < N ∧ D q) p) (x y : ℕ → K)
    (hD : ∀ p < N, D p → x p ≤ y p)
    (hP : ∀ p < N, ¬ D p → act N (poissonMatrix 2 (basicMatrices2 elements nodes).W c) x p ≤
      act N (poissonMatrix 2 (basicMatrices2 elements nodes).W c) y p) :
    ∀ p < N, x p ≤ y p := by
  have h := comparison (C74_poisson2 hv hn c hc D hj) (C25_poisson2 hv hn c).2.2.1
    ((poisson_parabolic c).truncates hv hn fun e he => by
      obtain ⟨h0, h1, h2⟩ := ho e he
      rw [zero_mul]
      exact ⟨by positivity, by positivity, by positivity⟩) (fun p => x p - y p)
    (fun p hp hDp => sub_nonpos.2 (hD p hp hDp)) fun p hp hDp => by
      have := hP p hp hDp
      unfold act at this ⊢
      simp only [mul_sub, Finset.sum_sub_distrib]
      exact sub_nonpos.2 this
  exact fun p hp => sub_nonpos.1 (h p hp)

theorem act_constant (hv : ValidElements 2 N elements) (hn : Nondegenerate2 elements nodes) (c b : K)
    (p : ℕ) (hp : p < N) : act N (poissonMatrix 2 (basicMatrices2 elements nodes).W c) (fun _ => b) p = 0 :=
  (C25_poisson2 hv hn c).2.2.2.1 b p hp

/-- C98: the temperature returned for a Poisson problem on a triangular mesh without obtuse angles. If
no node cools, it is nowhere below a bound of the prescribed values; if no node heats, nowhere above one.
Without sources it stays between the prescribed values. -/
theorem C98_poisson {c : ProblemClass} (e : Engine K) (hk : e.kind = .staticPoisson)
    (hr : Registered c e.cls e.kind) (D : ℕ → Prop) [DecidablePred D] (g : ℕ → K)
    (hb : ValidBoundaries e.ops.nodesCount e.boundaries)
    (hd : DirichletData e.ops.nodesCount 1 e.boundaries D g)
    (inv : ℕ → (ℕ → ℕ → K) → ℕ → ℕ → K) (contactCount : ℕ) (dv : Bool) (dt : K) (solver : SolverState K)
    (hi : solverInit inv e.cls e.kind e.ops e.boundaries contactCount dv dt = .ok solver)
    (hs : ∀ S : SolverState K, S.system = solver.system → S.schur = solver.schur →
      S.tVector = (fun _ => 0) → Solves e.ops.nodesCount S.system (e.solve S fun _ => 0))
    (hN : e.ops.nodesCount = N)
    (hv : ValidElements 2 N elements) (hn : Nondegenerate2 elements nodes)
    (ho : NonObtuse elements nodes) (prop : K) (hprop : prop ≠ 0)
    (hpo : e.ops.poisson = poissonMatrix 2 (basicMatrices2 elements nodes).W prop)
    (hj : ∀ p < N, Joined 3 elements (fun q => q < N ∧ D q) p) :
    ∃ s solver' T, e.poissonSolve solver = .ok (s, solver') ∧ s.scalar = .temperature T ∧
      (∀ lower, (∀ r < N, D r → lower ≤ g r) → (∀ r < N, ¬ D r → 0 ≤ e.ops.bodyTemperature 0 r) →
        ∀ p < N, lower ≤ T p) ∧
      ∀ upper, (∀ r < N, D r → g r ≤ upper) → (∀ r < N, ¬ D r → e.ops.bodyTemperature 0 r ≤ 0) →
        ∀ p < N, T p ≤ upper := by
  obtain ⟨s, solver', h0, T, hT, h1, h2⟩ := C75_poisson e hk hr D g hb hd inv contactCount dv dt solver
    hi hs
  refine ⟨s, solver', T, h0, hT, fun lower hl hq => ?_, fun upper hu hq => ?_⟩
  · rw [hN, hpo] at *
    refine C98_comparison hv hn ho prop hprop D hj (fun _ => lower) T
      (fun r hr hD => (hl r hr hD).trans (h1 r hr hD).ge) fun r hr hD => ?_
    rw [act_constant hv hn prop lower r hr, h2 r hr hD]
    exact hq r hr hD
  · rw [hN, hpo] at *
    refine C98_comparison hv hn ho prop hprop D hj T (fun _ => upper)
      (fun r hr hD => (h1 r hr hD).le.trans (hu r hr hD)) fun r hr hD => ?_
    rw [act_constant hv hn prop upper r hr, h2 r hr hD]
    exact hq r hr hD

/-- C98: more heat does not make any node colder. Two Poisson problems on the same mesh without obtuse
angles with the values prescribed at the same nodes: if those of the second and its sources are not
below those of the first, then its temperature is not either. -/
theorem C98_monotone {c c' : ProblemClass} (e e' : Engine K) (hk : e.kind = .staticPoisson)
    (hk' : e'.kind = .staticPoisson) (hr : Registered c e.cls e.kind) (hr' : Registered c' e'.cls e'.kind)
    (D : ℕ → Prop) [DecidablePred D] (g g' : ℕ → K)
    (hb : ValidBoundaries e.ops.nodesCount e.boundaries)
    (hb' : ValidBoundaries e'.ops.nodesCount e'.boundaries)
    (hd : DirichletData e.ops.nodesCount 1 e.boundaries D g)
    (hd' : DirichletData e'.ops.nodesCount 1 e'.boundaries D g')
    (inv : ℕ → (ℕ → ℕ → K) → ℕ → ℕ → K) (contactCount : ℕ) (dv : Bool) (dt : K)
    (solver solver' : SolverState K)
    (hi : solverInit inv e.cls e.kind e.ops e.boundaries contactCount dv dt = .ok solver)
    (hi' : solverInit inv e'.cls e'.kind e'.ops e'.boundaries contactCount dv dt = .ok solver')
    (hs : ∀ S : SolverState K, S.system = solver.system → S.schur = solver.schur →
      S.tVector = (fun _ => 0) → Solves e.ops.nodesCount S.system (e.solve S fun _ => 0))
    (hs' : ∀ S : SolverState K, S.system = solver'.system → S.schur = solver'.schur →
      S.tVector = (fun _ => 0) → Solves e'.ops.nodesCount S.system (e'.solve S fun _ => 0))
    (hN : e.ops.nodesCount = N) (hN' : e'.ops.nodesCount = N)
    (hv : ValidElements 2 N elements) (hn : Nondegenerate2 elements nodes)
    (ho : NonObtuse elements nodes) (prop : K) (hprop : prop ≠ 0)
    (hpo : e.ops.poisson = poissonMatrix 2 (basicMatrices2 elements nodes).W prop)
    (hpo' : e'.ops.poisson = poissonMatrix 2 (basicMatrices2 elements nodes).W prop)
    (hj : ∀ p < N, Joined 3 elements (fun q => q < N ∧ D q) p)
    (hg : ∀ r < N, D r → g r ≤ g' r)
    (hq : ∀ r < N, ¬ D r → e.ops.bodyTemperature 0 r ≤ e'.ops.bodyTemperature 0 r) :
    ∃ s s' solver₁ solver₁' T T', e.poissonSolve solver = .ok (s, solver₁) ∧
      e'.poissonSolve solver' = .ok (s', solver₁') ∧ s.scalar = .temperature T ∧
      s'.scalar = .temperature T' ∧ ∀ p < N, T p ≤ T' p := by
  obtain ⟨s, solver₁, h0, T, hT, h1, h2⟩ := C75_poisson e hk hr D g hb hd inv contactCount dv dt solver
    hi hs
  obtain ⟨s', solver₁', h0', T', hT', h1', h2'⟩ := C75_poisson e' hk' hr' D g' hb' hd' inv contactCount dv
    dt solver' hi' hs'
  refine ⟨s, s', solver₁, solver₁', T, T', h0, h0', hT, hT', ?_⟩
  rw [hN, hpo] at h2
  rw [hN', hpo'] at h2'
  rw [hN] at h1
  rw [hN'] at h1'
  refine C98_comparison hv hn ho prop hprop D hj T T' (fun r hr hD => ?_) fun r hr hD => ?_
  · rw [h1 r hr hD, h1' r hr hD]; exact hg r hr hD
  · rw [h2 r hr hD, h2' r hr hD]; exact hq r hr hD

/-! ### the heat equation -/

/-- The mass matrix keeps the sign of a field. -/
theorem mass_nonpos (hv : ValidElements 2 N elements) (hn : Nondegenerate2 elements nodes) (z : ℕ → K)
    (hz : ∀ p < N, z p ≤ 0) (p : ℕ) (hp : p < N) : act N (basicMatrices2 elements nodes).U z p ≤ 0 := by
  rw [← form_act _ _ hp, C23_mass_form2 hv hn]
  have : 0 ≤ - sumElements elements (fun _ e => area (vertices nodes e) / 12 *
        ((valuesOn e (single p) 0 + valuesOn e (single p) 1 + valuesOn e (single p) 2) *
            (valuesOn e z 0 + valuesOn e z 1 + valuesOn e z 2) +
          (valuesOn e (single p) 0 * valuesOn e z 0 + valuesOn e (single p) 1 * valuesOn e z 1 +
            valuesOn e (single p) 2 * valuesOn e z 2))) := by
    rw [← neg_one_mul, ← sumElements_mul]
    refine sumElements_nonneg _ _ fun t ht => ?_
    have he := getD_mem ht
    generalize elements.getD t [] = e at *
    have hs : ∀ i, 0 ≤ valuesOn e (single p : ℕ → K) i := fun i => by
      unfold valuesOn single; split <;> simp
    have hz' : ∀ i < 3, valuesOn e z i ≤ 0 := fun i hi => hz _ (getD_lt hv he hi)
    have ha : 0 ≤ area (vertices nodes e) / 12 := by unfold area; positivity
    have t0 := mul_nonpos_of_nonneg_of_nonpos (add_nonneg (add_nonneg (hs 0) (hs 1)) (hs 2))
      (add_nonpos (add_nonpos (hz' 0 (by omega)) (hz' 1 (by omega))) (hz' 2 (by omega)))
    have t1 := mul_nonpos_of_nonneg_of_nonpos (hs 0) (hz' 0 (by omega))
    have t2 := mul_nonpos_of_nonneg_of_nonpos (hs 1) (hz' 1 (by omega))
    have t3 := mul_nonpos_of_nonneg_of_nonpos (hs 2) (hz' 2 (by omega))
    rw [neg_one_mul, neg_nonneg]
    exact mul_nonpos_of_nonneg_of_nonpos ha (by linarith)
  linarith

/-- One step of the heat equation does not raise anything above zero. -/
theorem heat_step_nonpos (hv : ValidElements 2 N elements) (hn : Nondegenerate2 elements nodes)
    (hall : ∀ p < N, ∃ e ∈ elements, p ∈ e) (ρ κ dt : K) (hρ : 0 < ρ) (hκ : 0 ≤ κ) (hdt : 0 < dt)
    (hl : LongEnough elements nodes ρ κ dt) (D : ℕ → Prop) (w z : ℕ → K)
    (hD : ∀ p < N, D p → w p ≤ 0) (hz : ∀ p < N, z p ≤ 0)
    (h : ∀ p < N, ¬ D p → ρ * act N (basicMatrices2 elements nodes).U (fun i => (w i - z i) / dt) p +
      κ * act N (poissonMatrix 2 (basicMatrices2 elements nodes).W 1) w p = 0) :
    ∀ p < N, w p ≤ 0 := by
  set U := (basicMatrices2 elements nodes).U with hU
  set P := poissonMatrix 2 (basicMatrices2 elements nodes).W 1 with hP
  have hA : Parabolic N elements nodes κ (ρ / dt) (fun r s => κ * P r s + ρ / dt * U r s) :=
    ⟨fun _ _ _ _ => rfl⟩
  have hmass := C23_mass2 hv hn
  have hpois := C25_poisson2 hv hn 1
  have hpos : ∀ x, 0 ≤ form N N (fun r s => κ * P r s + ρ / dt * U r s) x x := fun x => by
    rw [hA.form]
    exact add_nonneg (mul_nonneg hκ (hpois.2.2.1 x)) (mul_nonneg (by positivity) (hmass.2.1 x))
  refine comparison (D := D) (A := fun r s => κ * P r s + ρ / dt * U r s) ?_ hpos
    (hA.truncates hv hn fun e he => ?_) w hD fun p hp hDp => ?_
  · intro x _ h0
    rw [quad_eq_form, hA.form] at h0
    refine hmass.2.2 hall x ?_
    have h1 := mul_nonneg hκ (hpois.2.2.1 x)
    have h2 : 0 < ρ / dt := by positivity
    have h3 := hmass.2.1 x
    have h4 : ρ / dt * form N N U x x ≤ 0 := by linarith
    exact le_antisymm (by by_contra hh; push Not at hh; nlinarith) h3
  · obtain ⟨h0, h1, h2⟩ := hl e he
    have key : ∀ q : K, ρ * area (vertices nodes e) ^ 2 ≤ 3 * κ * dt * q →
        ρ / dt * area (vertices nodes e) ^ 2 ≤ 3 * κ * q := fun q hq => by
      rw [div_mul_eq_mul_div, div_le_iff₀ hdt]
      linarith
    exact ⟨key _ h0, key _ h1, key _ h2⟩
  · have h1 := h p hp hDp
    have h2 := mass_nonpos hv hn z hz p hp
    have e1 : act N U (fun i => (w i - z i) / dt) p = 1 / dt * act N U w p - 1 / dt * act N U z p := by
      unfold act
      rw [Finset.mul_sum, Finset.mul_sum, ← Finset.sum_sub_distrib]
      exact Finset.sum_congr rfl fun s _ => by ring
    have e2 : act N (fun r s => κ * P r s + ρ / dt * U r s) w p = κ * act N P w p + ρ / dt * act N U w p := by
      unfold act
      rw [Finset.mul_sum, Finset.mul_sum, ← Finset.sum_add_distrib]
      exact Finset.sum_congr rfl fun s _ => by ring
    rw [e1] at h1
    rw [e2]
    have h3 : ρ / dt * act N U z p ≤ 0 := mul_nonpos_of_nonneg_of_nonpos (by positivity) h2
    have : κ * act N P w p + ρ / dt * act N U w p = ρ / dt * act N U z p := by
      linear_combination h1
    rw [this]
    exact h3

variable {V : Type}

/-- C98: thermal runs. If the body is not heated by its motion, conducts heat equally in all directions
and the time step is not too short for its triangles, then the temperatures of all returned states stay
between bounds of the initial and of the prescribed temperatures. -/
theorem C98_heat (e : CoupledEngine K) (hk : e.second.kind = .temperature)
    (hst : e.stateKind = .temperature) (hdim : e.second.ops.dimension = 2)
    (D : ℕ → Prop) [DecidablePred D] (g : ℕ → K)
    (hb : ValidBoundaries e.second.ops.nodesCount e.second.boundaries)
    (hd : DirichletData e.second.ops.nodesCount 1 e.second.boundaries D g)
    (hN : e.second.ops.nodesCount = N) (hv : ValidElements 2 N elements)
    (hn : Nondegenerate2 elements nodes) (hall : ∀ p < N, ∃ e ∈ elements, p ∈ e) (ρ κ : K) (hρ : 0 < ρ)
    (hκ : 0 ≤ κ) (c : ℕ → ℕ → K) (hiso : c 0 0 = κ ∧ c 0 1 = 0 ∧ c 1 0 = 0 ∧ c 1 1 = κ)
    (hM : e.second.ops.acceleration = Plane.acceleration N (basicMatrices2 elements nodes).U ρ)
    (hC : e.second.ops.thermalConductivity = Plane.conductivity (basicMatrices2 elements nodes).W c)
    (hE : ∀ w, ∀ p < N, act (2 * N) e.second.ops.thermalExpansion w p = 0)
    (fuel : ℕ) (a : Engine.Arguments K) (θ₀ : ℕ → K) (first second : SolverState K)
    (hc : first.currentTime = 0) (hts : second.timeStep = first.timeStep) (hdt : 0 < first.timeStep)
    (hl : LongEnough elements nodes ρ κ first.timeStep)
    (hs : ExactSolve e.second e.second.ops.nodesCount first.timeStep) (store : ProductStore K V)
    (rs : List (State K)) (r : CoupledEngine.Run K V)
    (h : e.solve fuel a θ₀ first second store = .ok (rs, r)) (s : State K) (hmem : s ∈ rs) :
    ∃ θ, s.scalar = .temperature θ ∧
      (∀ lower, (∀ p < N, lower ≤ θ₀ p) → (∀ p < N, D p → lower ≤ g p) → ∀ p < N, lower ≤ θ p) ∧
      ∀ upper, (∀ p < N, θ₀ p ≤ upper) → (∀ p < N, D p → g p ≤ upper) → ∀ p < N, θ p ≤ upper := by
  have hMe : ∀ x, ∀ p < N, act N e.second.ops.acceleration x p =
      ρ * act N (basicMatrices2 elements nodes).U x p := by
    intro x p hp
    rw [hM]
    unfold act
    rw [Finset.mul_sum]
    refine Finset.sum_congr rfl fun q hq => ?_
    have hq := Finset.mem_range.1 hq
    simp only [Plane.acceleration, block, Nat.div_eq_of_lt hp, Nat.div_eq_of_lt hq,
      Nat.mod_eq_of_lt hp, Nat.mod_eq_of_lt hq]
    ring
  have hCe : ∀ x, ∀ p < N, act N e.second.ops.thermalConductivity x p =
      κ * act N (poissonMatrix 2 (basicMatrices2 elements nodes).W 1) x p := by
    intro x p hp
    rw [hC]
    unfold act
    rw [Finset.mul_sum]
    refine Finset.sum_congr rfl fun q hq => ?_
    obtain ⟨c1, c2, c3, c4⟩ := hiso
    simp only [Plane.conductivity, poissonMatrix, Finset.sum_range_succ, Finset.sum_range_zero, c1, c2, c3,
      c4]
    ring
  have hcon := act_constant hv hn 1
  have hsub : ∀ (A : ℕ → ℕ → K) (x y : ℕ → K) (p : ℕ), act N A (fun i => x i - y i) p =
      act N A x p - act N A y p := fun A x y p => by
    unfold act
    simp only [mul_sub, Finset.sum_sub_distrib]
  obtain ⟨q, _, ⟨θ, h1, h2, h3⟩, rfl⟩ := coupled_invariant e fuel a θ₀ first second store hc hts
    (fun q => ∃ θ, q.state.scalar = .temperature θ ∧
      (∀ lower, (∀ p < N, lower ≤ θ₀ p) → (∀ p < N, D p → lower ≤ g p) → ∀ p < N, lower ≤ θ p) ∧
      ∀ upper, (∀ p < N, θ₀ p ≤ upper) → (∀ p < N, D p → g p ≤ upper) → ∀ p < N, θ p ≤ upper)
    (fun c s h0 hb => by
      obtain ⟨_, _, _, _, _, h4, _⟩ := coupled_between_start e a θ₀ first second store hc hts c s h0
      refine ⟨c.first.tVector, ?_, ?_, ?_⟩
      · rw [hb.scalar, hst]; rfl
      · intro lower h _; rw [h4 hst]; exact h
      · intro upper h _; rw [h4 hst]; exact h)
    (fun q q' hbt hq hstep => by
      obtain ⟨θ, hθ, hlo, hup⟩ := hq
      obtain ⟨x, x', h1, h2, hdir, hrows⟩ := heat_step_rows e hk hst hdim D g hb hd fuel _ hdt.ne' hs q q'
        hbt hstep
      rw [hθ] at h1
      cases h1
      rw [hN] at hdir hrows
      refine ⟨x', h2, fun lower hlo0 hlog p hp => ?_, fun upper hup0 hupg p hp => ?_⟩
      · refine sub_nonpos.1 (heat_step_nonpos hv hn hall ρ κ _ hρ hκ hdt hl D (fun i => lower - x' i)
          (fun i => lower - θ i) (fun p hp hD => ?_) (fun p hp => sub_nonpos.2 (hlo lower hlo0 hlog p hp))
          (fun p hp hD => ?_) p hp)
        · rw [hdir p hp hD]; exact sub_nonpos.2 (hlog p hp hD)
        · have := hrows p hp hD
          rw [hE _ p hp, hMe _ p hp, hCe _ p hp, neg_zero] at this
          rw [hsub _ (fun _ => lower), hcon lower p hp]
          have e1 : (fun i => (lower - x' i - (lower - θ i)) / first.timeStep) =
              fun i => (0 : ℕ → K) i - (x' i - θ i) / first.timeStep := by
            funext i; simp only [Pi.zero_apply]; ring
          rw [e1, hsub]
          have e2 : act N (basicMatrices2 elements nodes).U (0 : ℕ → K) p = 0 := by
            unfold act; simp
          rw [e2]
          linear_combination - this
      · refine sub_nonpos.1 (heat_step_nonpos hv hn hall ρ κ _ hρ hκ hdt hl D (fun i => x' i - upper)
          (fun i => θ i - upper) (fun p hp hD => ?_) (fun p hp => sub_nonpos.2 (hup upper hup0 hupg p hp))
          (fun p hp hD => ?_) p hp)
        · rw [hdir p hp hD]; exact sub_nonpos.2 (hupg p hp hD)
        · have := hrows p hp hD
          rw [hE _ p hp, hMe _ p hp, hCe _ p hp, neg_zero] at this
          rw [hsub _ x', hcon upper p hp]
          have e1 : (fun i => (x' i - upper - (θ i - upper)) / first.timeStep) =
              fun i => (x' i - θ i) / first.timeStep := by funext i; ring
          rw [e1]
          linear_combination this) rs r h s hmem
  exact ⟨θ, h1, h2, h3⟩

/-! ### generated meshes -/

omit [IsStrictOrderedRing K] in
/-- Whether a triangle has an obtuse angle does not depend on the order of its vertices. -/
theorem nonObtuse_iff (X : ℕ → ℕ → K) :
    (0 ≤ corner X 0 1 2 ∧ 0 ≤ corner X 1 2 0 ∧ 0 ≤ corner X 2 0 1) ↔
      ∀ i < 3, ∀ j < 3, ∀ k < 3, i ≠ j → j ≠ k → i ≠ k → 0 ≤ corner X i j k := by
  constructor
  · rintro ⟨h0, h1, h2⟩ i hi j hj k hk hij hjk hik
    have sym : ∀ i j k, corner X i j k = corner X i k j := fun i j k => by unfold corner; ring
    interval_cases i <;> interval_cases j <;> interval_cases k <;> first
      | omega
      | assumption
      | (rw [sym]; assumption)
  · intro h
    exact ⟨h 0 (by omega) 1 (by omega) 2 (by omega) (by omega) (by omega) (by omega),
      h 1 (by omega) 2 (by omega) 0 (by omega) (by omega) (by omega) (by omega),
      h 2 (by omega) 0 (by omega) 1 (by omega) (by omega) (by omega) (by omega)⟩

omit [IsStrictOrderedRing K] in
theorem SameSimplices.nonObtuse {nodes nodes' : ℕ → ℕ → K} {elements elements' : List (List ℕ)}
    (h : SameSimplices 2 nodes nodes' elements elements') :
    NonObtuse elements' nodes' ↔ NonObtuse elements nodes := by
  have hc : ∀ {X Y : ℕ → ℕ → K} {σ : ℕ → ℕ}, (∀ i < 2 + 1, X i = Y (σ i)) → ∀ i < 3, ∀ j < 3, ∀ k < 3,
      corner X i j k = corner Y (σ i) (σ j) (σ k) := by
    intro X Y σ hs i hi j hj k hk
    unfold corner
    rw [hs i hi, hs j hj, hs k hk]
  constructor
  · intro ho e he
    obtain ⟨e', he', σ, hσ, hs⟩ := forall₂_mem_left h.flip he
    rw [nonObtuse_iff]
    have hsurj : ∀ m < 3, ∃ i < 3, σ i = m := by
      intro m hm
      have := Finset.surjOn_of_injOn_of_card_le (s := Finset.range 3) (t := Finset.range 3) σ
        (fun i hi => Finset.mem_coe.2 (Finset.mem_range.2 (hσ.1 i (by simpa using hi))))
        (fun a ha b hb h => hσ.2 a (by simpa using ha) b (by simpa using hb) h) le_rfl
        (Finset.mem_coe.2 (Finset.mem_range.2 hm))
      obtain ⟨i, hi, h⟩ := this
      exact ⟨i, by simpa using hi, h⟩
    intro i hi j hj k hk hij hjk hik
    obtain ⟨i, hi', rfl⟩ := hsurj i hi
    obtain ⟨j, hj', rfl⟩ := hsurj j hj
    obtain ⟨k, hk', rfl⟩ := hsurj k hk
    rw [← hc hs i hi' j hj' k hk']
    exact (nonObtuse_iff _).1 (ho e' he') i hi' j hj' k hk' (fun h => hij (by rw [h]))
      (fun h => hjk (by rw [h])) fun h => hik (by rw [h])
  · intro ho e' he'
    obtain ⟨e, he, σ, hσ, hs⟩ := forall₂_mem_left h he'
    rw [nonObtuse_iff]
    intro i hi j hj k hk hij hjk hik
    rw [hc hs i hi j hj k hk]
    exact (nonObtuse_iff _).1 (ho e he) _ (hσ.1 i hi) _ (hσ.1 j hj) _ (hσ.1 k hk)
      (fun h => hij (hσ.2 i hi j hj h)) (fun h => hjk (hσ.2 j hj k hk h)) fun h => hik (hσ.2 i hi k hk h)

/-- The angles of the triangles of a cell. -/
theorem cell_corners {sx sy : ℕ} {ex ey : K} {nodes : List (K × K)} {e : ℕ × ℕ × ℕ}
    {t : (K × K) × (K × K) × (K × K)} (ht : t ∈ crossTriangles sx sy ex ey)
    (h : HasCorners nodes e t) :
    let X := vertices (coordinates nodes) [e.1, e.2.1, e.2.2]
    (corner X 0 1 2 = ex ^ 2 / 2 ∧ corner X 1 2 0 = ex ^ 2 / 2 ∧ corner X 2 0 1 = (ey ^ 2 - ex ^ 2) / 4) ∨
    (corner X 0 1 2 = ey ^ 2 / 2 ∧ corner X 1 2 0 = ey ^ 2 / 2 ∧ corner X 2 0 1 = (ex ^ 2 - ey ^ 2) / 4) := by
  intro X
  have h0 := coordinates_corners h 0 (by omega)
  have h1 := coordinates_corners h 1 (by omega)
  have h2 := coordinates_corners h 2 (by omega)
  obtain ⟨⟨i, j⟩, -, h⟩ := List.mem_flatMap.mp ht
  simp only [cellTriangles, List.mem_cons, List.not_mem_nil, or_false] at h
  unfold corner
  simp only [X, h0, h1, h2]
  rcases h with rfl | rfl | rfl | rfl
  · left; simp; refine ⟨?_, ?_, ?_⟩ <;> ring
  · right; simp; refine ⟨?_, ?_, ?_⟩ <;> ring
  · left; simp; refine ⟨?_, ?_, ?_⟩ <;> ring
  · right; simp; refine ⟨?_, ?_, ?_⟩ <;> ring

/-- C98: a generated mesh, renumbered by the mesh constructor, has no obtuse angles exactly if its cells
are squares. -/
theorem C98_generated [FloorSemiring K] [Inhabited (K × K)] {perimeter width height : K}
    (hp : 0 < perimeter) (hw : 0 < width) (hh : 0 < height) (htol : 1 / 10000 ≤ perimeter / 2)
    (hw' : 1 / 10000 ≤ width) (hh' : 1 / 10000 ≤ height) {nodes : List (K × K)}
    {elements : List (ℕ × ℕ × ℕ)} (hm : crossMesh perimeter width height = some (nodes, elements))
    (mean : List (K × K) → K × K) (isContact isDirichlet : K × K → Bool) :
    let m := identifyBoundaries mean nodes (elementRows elements) isContact isDirichlet
    NonObtuse m.elements (coordinates m.nodes) ↔
      width / (⌈width / perimeter⌉₊ : K) = height / (⌈height / perimeter⌉₊ : K) := by
  intro m
  have hval := valid_crossMesh hp hw hh htol hw' hh' hm
  obtain ⟨hnd, -⟩ := crossMesh_good hp hw hh htol hw' hh' hm
  have hv : Valid nodes.length (elementRows elements) := fun row h v hv => (hval row h).2 v hv
  have hk : ∀ e ∈ elementRows elements, e.length = 3 := fun row h => (hval row h).1
  obtain ⟨π, h⟩ := identify_stage mean 3 nodes (elementRows elements) isContact isDirichlet hv hk
  rw [show NonObtuse m.elements (coordinates m.nodes) ↔ NonObtuse (elementRows elements) (coordinates nodes)
    from (h.sameSimplices hval hnd).nonObtuse]
  obtain ⟨w1, -⟩ := crossSize_tolerance hp hw htol hw'
  obtain ⟨h1, -⟩ := crossSize_tolerance hp hh htol hh'
  have hsx := crossSize_pos hw hp
  have hsy := crossSize_pos hh hp
  have ex0 := (crossSize_edge hw hp).1
  have ey0 := (crossSize_edge hh hp).1
  obtain ⟨es, g1, g2⟩ := crossElements_corners (sx := crossSize width perimeter)
    (sy := crossSize height perimeter) w1 h1
  simp only [crossMesh, g1, Option.bind_eq_bind, Option.bind_some, Option.some.injEq,
    Prod.mk.injEq] at hm
  obtain ⟨rfl, rfl⟩ := hm
  change _ ↔ width / (crossSize width perimeter : K) = height / (crossSize height perimeter : K)
  generalize width / (crossSize width perimeter : K) = ex at *
  generalize height / (crossSize height perimeter : K) = ey at *
  constructor
  · intro ho
    have key : ∀ t ∈ cellTriangles ex ey 0 0, ∃ e ∈ es,
        HasCorners (crossNodes (crossSize width perimeter) (crossSize height perimeter) ex ey) e t := by
      intro t ht
      obtain ⟨e, he, hce⟩ := forall₂_mem_left g2.flip (x := t) (by
        refine List.mem_flatMap.2 ⟨(0, 0), ?_, ht⟩
        simp only [cells, List.mem_flatMap, List.mem_range, List.mem_map]
        exact ⟨0, by omega, 0, by omega, rfl⟩)
      exact ⟨e, he, hce⟩
    obtain ⟨e, he, hce⟩ := key ((0 * ex, 0 * ey), ((0 + 1) * ex, 0 * ey), ((0 + 1 / 2) * ex, (0 + 1 / 2) * ey))
      (by simp [cellTriangles])
    obtain ⟨e', he', hce'⟩ := key (((0 + 1) * ex, 0 * ey), ((0 + 1) * ex, (0 + 1) * ey),
      ((0 + 1 / 2) * ex, (0 + 1 / 2) * ey)) (by simp [cellTriangles])
    have o1 := (ho _ (List.mem_map_of_mem he)).2.2
    have o2 := (ho _ (List.mem_map_of_mem he')).2.2
    have val : ∀ {e t}, HasCorners (crossNodes (crossSize width perimeter) (crossSize height perimeter) ex ey)
        e t → corner (vertices (coordinates (crossNodes (crossSize width perimeter)
          (crossSize height perimeter) ex ey)) [e.1, e.2.1, e.2.2]) 2 0 1 =
        (t.1.1 - t.2.2.1) * (t.2.1.1 - t.2.2.1) + (t.1.2 - t.2.2.2) * (t.2.1.2 - t.2.2.2) := by
      intro e t h
      unfold corner
      rw [coordinates_corners h 0 (by omega), coordinates_corners h 1 (by omega),
        coordinates_corners h 2 (by omega)]
      simp
    rw [val hce] at o1
    rw [val hce'] at o2
    simp only at o1 o2
    have e1 : ex ^ 2 = ey ^ 2 := by nlinarith
    exact (sq_eq_sq₀ ex0.le ey0.le).1 e1
  · rintro rfl row hrow
    obtain ⟨e, he, rfl⟩ := List.mem_map.1 hrow
    obtain ⟨t, ht, hct⟩ := forall₂_left g2 e he
    rcases cell_corners ht hct with ⟨c1, c2, c3⟩ | ⟨c1, c2, c3⟩ <;> rw [c1, c2, c3] <;>
      exact ⟨by positivity, by positivity, by simp⟩

end

/-! ### instances -/

/-- The quadrilateral has no obtuse angles; one of its angles is a right one. -/
theorem exampleMesh2_nonObtuse : NonObtuse exampleMesh2 exampleNodes2 := by
  unfold NonObtuse; decide +kernel

/-- The hypotheses of `C98_poisson` are met by the quadrilateral held at five at two of its nodes and
heated at the others: it is nowhere colder than five. -/
example : ∃ solver, solverInit (fun _ A => A) .staticGlobal .staticPoisson quadrilateralOps
        [⟨.list [0, 1], fun _ => 5⟩] 0 false 1 = .ok solver ∧
      ∃ s solver' T, (heldEngine .staticPoisson 4).poissonSolve solver = .ok (s, solver') ∧
        s.scalar = .temperature T ∧ ∀ p < 4, 5 ≤ T p := by
  refine ⟨_, rfl, ?_⟩
  obtain ⟨hb, hd⟩ := heldBoundaries_valid 1 (by omega)
  have j0 : Joined 3 exampleMesh2 (fun q => q < 4 ∧ q < 4 * 1 ∧ q % 4 < 2) 0 := .fixed 0 (by decide)
  have j1 : Joined 3 exampleMesh2 (fun q => q < 4 ∧ q < 4 * 1 ∧ q % 4 < 2) 1 := .fixed 1 (by decide)
  have j2 : Joined 3 exampleMesh2 (fun q => q < 4 ∧ q < 4 * 1 ∧ q % 4 < 2) 2 :=
    .element [0, 1, 2] (by decide) 0 2 (by decide) (by decide) j0
  have j3 : Joined 3 exampleMesh2 (fun q => q < 4 ∧ q < 4 * 1 ∧ q % 4 < 2) 3 :=
    .element [3, 2, 1] (by decide) 2 0 (by decide) (by decide) j1
  have hj : ∀ p < 4, Joined 3 exampleMesh2 (fun q => q < 4 ∧ q < 4 * 1 ∧ q % 4 < 2) p := by
    intro p hp; interval_cases p <;> assumption
  have hu := (C74_scalar2 exampleMesh2_valid exampleMesh2_nondegenerate (by decide) 3 (1 / 2)
    (by norm_num) (by norm_num) quadrilateralOps rfl rfl rfl _ _ _ hb hd
    ⟨none, none, none, none, none, some 1, none⟩ 1 (by norm_num) rfl _).2 hj rfl
  obtain ⟨s, solver', T, h1, h2, h3, _⟩ := C98_poisson (c := .PoissonProblem) (heldEngine .staticPoisson 4)
    rfl ⟨⟨.static, by decide +kernel, by decide +kernel⟩, Or.inr (by decide +kernel)⟩
    (fun r => r < 4 * 1 ∧ r % 4 < 2) (fun _ => 5) hb hd (fun _ A => A) 0 false 1 _ rfl
    (fun S h1 h2 h3 => by
      change Solves 4 _ (exactSolution 4 S.system)
      rw [h1]
      exact exactSolution_solves 4 _ hu) rfl exampleMesh2_valid exampleMesh2_nondegenerate
    exampleMesh2_nonObtuse (1 / 2) (by norm_num) rfl hj
  exact ⟨s, solver', T, h1, h2, h3 5 (fun _ _ _ => le_rfl) fun r _ _ => by
    show (0 : ℚ) ≤ (r : ℚ); positivity⟩

/-- A kite: two pairs of triangles with obtuse angles. -/
def kiteNodes : ℕ → ℕ → ℚ := fun p k =>
  (([[-2, 0], [2, 0], [-1, 1 / 2], [-1, -1 / 2], [0, 0]] : List (List ℚ)).getD p []).getD k 0

def kiteElements : List (List ℕ) := [[4, 0, 2], [4, 2, 1], [4, 1, 3], [4, 3, 0]]

def kiteOps : Operators ℚ :=
  { exampleOps with
    nodesCount := 5
    poisson := poissonMatrix 2 (basicMatrices2 kiteElements kiteNodes).W 1
    bodyTemperature := fun _ _ => 0 }

/-- C98: on a mesh with obtuse angles the temperature leaves the range of the prescribed values. The kite
is held at one at one of its corners and at zero at the others, nothing heats or cools it, and every
solution is negative at its interior node. -/
theorem C98_obtuse_wrong :
    ValidElements 2 5 kiteElements ∧ Nondegenerate2 kiteElements kiteNodes ∧
    ¬ NonObtuse kiteElements kiteNodes ∧
    ∃ S, StatementKind.staticPoisson.update kiteOps
        [⟨.list [0, 1, 2, 3], fun j => if j = 0 then 1 else 0⟩] {} = .ok S ∧
      ∀ T, Solves 5 S T → T 4 = - 1 / 14 := by
  refine ⟨by unfold ValidElements; decide, ?_, by unfold NonObtuse; decide +kernel, _, rfl, ?_⟩
  · unfold Nondegenerate2; decide +kernel
  · intro T h
    have key : ∀ r < 5, ∑ s ∈ Finset.range 5, (([[1, 0, 0, 0, 0], [0, 1, 0, 0, 0], [0, 0, 1, 0, 0],
        [0, 0, 0, 1, 0], [0, 0, 0, 0, 21 / 2]] : List (List ℚ)).getD r []).getD s 0 * T s =
        ([1, 0, 0, 0, - 3 / 4] : List ℚ).getD r 0 := by
      intro r hr
      have := h r hr
      unfold Row at this
      refine Eq.trans (Eq.trans (Finset.sum_congr rfl fun s hs0 => ?_) this) ?_
      · congr 1
        have hs := Finset.mem_range.1 hs0
        clear hs0 this h T
        revert r s
        decide +kernel
      · clear this h T
        revert r
        decide +kernel
    have := key 4 (by decide)
    simp [Finset.sum_range_succ] at this
    linarith

/-- The unit square, two triangles. -/
def unitNodes : ℕ → ℕ → ℚ := fun p k =>
  (([[0, 0], [1, 0], [1, 1], [0, 1]] : List (List ℚ)).getD p []).getD k 0

def unitElements : List (List ℕ) := [[0, 1, 2], [0, 2, 3]]

def unitOps : Operators ℚ :=
  { exampleOps with
    nodesCount := 4
    acceleration := Plane.acceleration 4 (basicMatrices2 unitElements unitNodes).U 1
    thermalExpansion := fun _ _ => 0
    thermalConductivity := Plane.conductivity (basicMatrices2 unitElements unitNodes).W
      fun a b => if a = b then 1 else 0 }

/-- C98: too short a time step cools below the coldest point. The insulated unit square of unit density
and conductivity has the temperature one at node 1 and zero at the others; there are no obtuse angles.
After one step shorter than 1/12 the temperature of the opposite node is negative, whatever the motion. -/
theorem C98_short_step_wrong (dt : ℚ) (h0 : 0 < dt) (h1 : dt < 1 / 12) (v : ℕ → ℚ) :
    NonObtuse unitElements unitNodes ∧
    ∃ S, StatementKind.temperature.update unitOps []
        { velocity := some v, temperature := some fun p => if p = 1 then 1 else 0, timeStep := some dt } =
          .ok S ∧
      ∀ T, Solves 4 S T → T 3 < 0 := by
  refine ⟨by unfold NonObtuse; decide +kernel, ?_⟩
  obtain ⟨S, hS, hiff⟩ := C34_heat unitOps [] (fun _ => False) (fun _ => 0) rfl
    (by intro b hb; cases hb)
    ⟨fun x => ⟨False.elim, by rintro ⟨v, b, hb, -⟩; cases hb⟩, by rintro x v ⟨b, hb, -⟩; cases hb⟩
    v (fun p => if p = 1 then 1 else 0) dt h0.ne'
    { velocity := some v, temperature := some fun p => if p = 1 then 1 else 0, timeStep := some dt }
    rfl rfl rfl
  refine ⟨S, hS, fun T hT => ?_⟩
  obtain ⟨_, hrows⟩ := (hiff T).1 hT
  have hM : ∀ r < 4, ∀ s < 4, unitOps.acceleration r s =
      (([[1 / 6, 1 / 24, 1 / 12, 1 / 24], [1 / 24, 1 / 12, 1 / 24, 0], [1 / 12, 1 / 24, 1 / 6, 1 / 24],
        [1 / 24, 0, 1 / 24, 1 / 12]] : List (List ℚ)).getD r []).getD s 0 := by decide +kernel
  have hC : ∀ r < 4, ∀ s < 4, unitOps.thermalConductivity r s =
      (([[1, - 1 / 2, 0, - 1 / 2], [- 1 / 2, 1, - 1 / 2, 0], [0, - 1 / 2, 1, - 1 / 2],
        [- 1 / 2, 0, - 1 / 2, 1]] : List (List ℚ)).getD r []).getD s 0 := by decide +kernel
  have hE : ∀ r, act (2 * 4) unitOps.thermalExpansion v r = 0 := fun r => by
    unfold act; exact Finset.sum_eq_zero fun s _ => zero_mul _
  have key : ∀ r < 4, ∑ s ∈ Finset.range 4, unitOps.acceleration r s *
        ((T s - if s = 1 then 1 else 0) / dt) +
      ∑ s ∈ Finset.range 4, unitOps.thermalConductivity r s * T s = 0 := fun r hr => by
    have h := hrows r hr not_false
    rw [show unitOps.nodesCount = 4 from rfl, hE r, neg_zero] at h
    exact h
  have k0 := key 0 (by decide)
  have k1 := key 1 (by decide)
  have k2 := key 2 (by decide)
  have k3 := key 3 (by decide)
  simp only [Finset.sum_range_succ, Finset.sum_range_zero, zero_add, hM, hC, Nat.reduceLT,
    Nat.lt_add_one] at k0 k1 k2 k3
  simp at k0 k1 k2 k3
  field_simp at k0 k1 k2 k3
  have a1 : (T 1 - T 3) * (1 + 12 * dt) = 1 := by linarith
  have a2 : (T 0 - T 1 + T 2 - T 3) * (1 + 36 * dt) = - 1 := by linarith
  have a3 : 2 * (T 0 + T 2) + (T 1 + T 3) = 1 := by linarith
  have a4 : 6 * T 3 * ((1 + 12 * dt) * (1 + 36 * dt)) = 36 * dt * (12 * dt - 1) := by
    linear_combination (1 + 12 * dt) * (1 + 36 * dt) * a3 - 2 * (1 + 12 * dt) * a2 -
      3 * (1 + 36 * dt) * a1
  have a5 : 0 < (1 + 12 * dt) * (1 + 36 * dt) := by positivity
  by_contra hT3
  push Not at hT3
  have : 36 * dt * (12 * dt - 1) < 0 := by nlinarith
  have : 0 ≤ 6 * T 3 * ((1 + 12 * dt) * (1 + 36 * dt)) := by positivity
  linarith

/-- An acute triangle. -/
def acuteNodes : ℕ → ℕ → ℚ := fun p k =>
  (([[0, 0], [2, 0], [1, 2]] : List (List ℚ)).getD p []).getD k 0

def acuteOps : Operators ℚ :=
  { exampleOps with
    nodesCount := 3
    acceleration := Plane.acceleration 3 (basicMatrices2 [[0, 1, 2]] acuteNodes).U 1
    thermalExpansion := fun _ _ => 0
    thermalConductivity := Plane.conductivity (basicMatrices2 [[0, 1, 2]] acuteNodes).W
      fun a b => if a = b then 1 else 0 }

/-- Thermal problem on the acute triangle; the heat equation is solved exactly, the motion not at all. -/
noncomputable def acuteEngine : CoupledEngine ℚ where
  first :=
    { grid := { nodesCount := 3, dimension := 2, nodes := acuteNodes }, cls := .dynamicGlobal
      kind := .dynamicVelocityWithTemperature, ops := acuteOps, boundaries := []
      solve := fun s _ => s.system.rhs }
  second :=
    { grid := { nodesCount := 3, dimension := 2, nodes := acuteNodes }, cls := .dynamicGlobal
      kind := .temperature, ops := acuteOps, boundaries := [], solve := fun s _ => exactSolution 3 s.system }
  stateKind := .temperature
  exceeds := fun _ _ _ _ => false

/-- The hypotheses of `C98_heat` are met by an insulated acute triangle with the time step one. -/
example : ValidElements 2 3 [[0, 1, 2]] ∧ Nondegenerate2 [[0, 1, 2]] acuteNodes ∧
    (∀ p < 3, ∃ e ∈ [[0, 1, 2]], p ∈ e) ∧ LongEnough [[0, 1, 2]] acuteNodes 1 1 1 ∧
    (∀ w, ∀ p < 3, act (2 * 3) acuteEngine.second.ops.thermalExpansion w p = 0) ∧
    DirichletData 3 1 acuteEngine.second.boundaries (fun _ => False) (fun _ => (0 : ℚ)) ∧
    ExactSolve acuteEngine.second 3 1 := by
  have hv : ValidElements 2 3 [[0, 1, 2]] := by unfold ValidElements; decide
  have hn : Nondegenerate2 [[0, 1, 2]] acuteNodes := by unfold Nondegenerate2; decide +kernel
  have hd : DirichletData 3 1 acuteEngine.second.boundaries (fun _ => False) (fun _ => (0 : ℚ)) :=
    ⟨fun x => ⟨False.elim, by rintro ⟨v, b, hb, -⟩; cases hb⟩, by rintro x v ⟨b, hb, -⟩; cases hb⟩
  refine ⟨hv, hn, by decide, by unfold LongEnough; decide +kernel, fun w p _ => ?_, hd, ?_⟩
  · exact Finset.sum_eq_zero fun s _ => zero_mul _
  · intro S guess var hdt h
    refine exactSolution_solves 3 _ ?_
    have := update_solvable .temperature acuteOps [] var S.system 1 rfl (fun _ => False) (fun _ => 0)
      (by intro b hb; cases hb) hd (fun lhs hlhs => ?_) h
    · exact this
    · simp only [updateLhs, hdt, required, bind, Except.bind, pure, Except.pure, Except.ok.injEq] at hlhs
      subst hlhs
      intro x _ h0
      rw [quad_eq_form] at h0
      have hA : Parabolic 3 [[0, 1, 2]] acuteNodes 1 1 (fun r s => 1 / 1 * acuteOps.acceleration r s +
          acuteOps.thermalConductivity r s) := ⟨by decide +kernel⟩
      change form 3 3 _ x x = 0 at h0
      rw [hA.form] at h0
      have h1 := (C25_poisson2 hv hn 1).2.2.1 x
      have h2 := (C23_mass2 hv hn).2.1 x
      exact (C23_mass2 hv hn).2.2 (by decide) x (by linarith)

end Conmech
