import Verif.Spec.Reactions
import Verif.Props.ContactSolution
import Verif.Props.Methods
import Verif.Props.Superposition
import Mathlib.Analysis.Calculus.LocalExtr.Basic
import Mathlib.Tactic.LinearCombination
/-!
C101: contact problems of supported bodies: the least energy, the balance of forces, and what happens at
supports that touch a contact surface.
-/
namespace Conmech
open Spec

section algebra
variable {K : Type} [Field K] [LinearOrder K] [IsStrictOrderedRing K] (N dim : ℕ)
  (bs : List (CondBoundary K)) (S : System K) (D : ℕ → Prop) [DecidablePred D] (g : ℕ → K)

/-- C101: what is minimised. Up to a constant the energy of the eliminated system is the energy of the
original system with the supports at their places, plus half the squared distance of the unknowns of the
supports from their values. -/
theorem C101_springs (hv : ValidBoundaries N bs) (hd : DirichletData N dim bs D g)
    (hA : ∀ r < dim * N, ∀ s < dim * N, S.lhs r s = S.lhs s r) :
    ∃ c : K, ∀ x, energy (dim * N) (applyDirichlet N dim bs S) x = energy (dim * N) S (heldAt D g x) +
      1 / 2 * (∑ r ∈ Finset.range (dim * N), if D r then (x r - g r) ^ 2 else 0) + c := by
  set G : ℕ → K := fun r => if D r then g r else 0 with hG
  refine ⟨-energy (dim * N) S G - 1 / 2 * (∑ r ∈ Finset.range (dim * N), if D r then g r ^ 2 else 0),
    fun x => ?_⟩
  have hc := C14_all_at_once_partial N dim bs S D g hv hd
  have e1 : heldAt D g x = fun r => G r + if D r then 0 else x r := by
    funext r; by_cases h : D r <;> simp [heldAt, hG, h]
  rw [e1, energy_expand (dim * N) S hA G]
  unfold energy
  rw [quad_elim N dim bs S D g hv hd]
  have e2 : ∀ r, ∑ s ∈ Finset.range (dim * N), S.lhs r s * G s =
      ∑ s ∈ Finset.range (dim * N), if D s then S.lhs r s * g s else 0 := fun r =>
    Finset.sum_congr rfl fun s _ => by by_cases h : D s <;> simp [hG, h]
  have e3 : ∑ r ∈ Finset.range (dim * N), (applyDirichlet N dim bs S).rhs r * x r =
      -(∑ r ∈ Finset.range (dim * N), (if D r then 0 else x r) *
        (∑ s ∈ Finset.range (dim * N), S.lhs r s * G s - S.rhs r)) +
      ∑ r ∈ Finset.range (dim * N), if D r then g r * x r else 0 := by
    rw [← Finset.sum_neg_distrib, ← Finset.sum_add_distrib]
    refine Finset.sum_congr rfl fun r _ => ?_
    rw [(hc r).2, e2]
    by_cases h : D r
    · simp [h]
    · simp only [h, if_false]; ring
  have e4 : (∑ r ∈ Finset.range (dim * N), if D r then (x r - g r) ^ 2 else 0) =
      (∑ r ∈ Finset.range (dim * N), if D r then x r * x r else 0) -
      2 * (∑ r ∈ Finset.range (dim * N), if D r then g r * x r else 0) +
      ∑ r ∈ Finset.range (dim * N), if D r then g r ^ 2 else 0 := by
    rw [Finset.mul_sum, ← Finset.sum_sub_distrib, ← Finset.sum_add_distrib]
    refine Finset.sum_congr rfl fun r _ => ?_
    by_cases h : D r
    · simp only [h, if_true]; ring
    · simp [h]
  rw [e3, e4]
  ring

omit [LinearOrder K] [IsStrictOrderedRing K] [DecidablePred D] in
/-- The contact cost depends on the unknowns of the nodes of the contact surfaces only. -/
theorem contactCost_apart (sqrt : K → K) (c : Conditions K) (d : ContactData K) (hdim : d.variableDimension = dim)
    (h0 : 0 < dim) (hap : ContactApart N D d) {x y : ℕ → K} (h : ∀ r, ¬ D r → x r = y r) :
    contactCostFunctional sqrt c d ⟨dim * N, x⟩ = contactCostFunctional sqrt c d ⟨dim * N, y⟩ := by
  rw [contactCostFunctional_eq, contactCostFunctional_eq]
  congr 1
  refine List.map_congr_left fun s hs => ?_
  unfold surfaceCost
  refine quadrature_congr c (hdim ▸ h0) _ _ _ _ _ _ fun node hnode i hi => ?_
  unfold nodeValue
  simp only [hdim, Nat.mul_div_cancel_left _ h0]
  split_ifs
  · exact h _ (hap s hs node hnode i hi)
  · rfl

/-- C101 (partial: no contact surface has a node on a support, see `C101_supports_wrong`). What is handed
back after minimising has the least energy, including the contact cost, among all fields with the
prescribed values, and it is what the backend found. -/
theorem C101_held_partial (hv : ValidBoundaries N bs) (hd : DirichletData N dim bs D g) (h0 : 0 < dim)
    (hA : ∀ r < dim * N, ∀ s < dim * N, S.lhs r s = S.lhs s r) (sqrt : K → K) (c : Conditions K)
    (d : ContactData K) (hdim : d.variableDimension = dim) (hap : ContactApart N D d)
    (solveImpl : (ℕ → K) → ℕ → K) (guess : ℕ → K)
    (hx : Minimises (fun y => costFunctional sqrt c d (dim * N) (applyDirichlet N dim bs S).lhs
      (applyDirichlet N dim bs S).rhs ⟨dim * N, y⟩) (solveImpl guess)) :
    HeldMinimiser (dim * N) D g (fun y => costFunctional sqrt c d (dim * N) S.lhs S.rhs ⟨dim * N, y⟩)
      (solverSolve solveImpl N dim bs guess) ∧
    ∀ r < dim * N, solverSolve solveImpl N dim bs guess r = solveImpl guess r := by
  obtain ⟨k, hk⟩ := C101_springs N dim bs S D g hv hd hA
  set x := solveImpl guess with hxdef
  have hu : solverSolve solveImpl N dim bs guess = heldAt D g x := by
    funext r
    rw [C16_solution_satisfies_dirichlet N dim bs D g solveImpl guess hv hd]
    rfl
  have hcost : ∀ y, costFunctional sqrt c d (dim * N) (applyDirichlet N dim bs S).lhs
      (applyDirichlet N dim bs S).rhs ⟨dim * N, y⟩ = energy (dim * N) (applyDirichlet N dim bs S) y +
      contactCostFunctional sqrt c d ⟨dim * N, y⟩ := fun y =>
    C48_energy sqrt c d (dim * N) (applyDirichlet N dim bs S) ⟨dim * N, y⟩
  have hcost' : ∀ y, costFunctional sqrt c d (dim * N) S.lhs S.rhs ⟨dim * N, y⟩ =
      energy (dim * N) S y + contactCostFunctional sqrt c d ⟨dim * N, y⟩ := fun y =>
    C48_energy sqrt c d (dim * N) S ⟨dim * N, y⟩
  have hheld : ∀ y, contactCostFunctional sqrt c d ⟨dim * N, heldAt D g y⟩ =
      contactCostFunctional sqrt c d ⟨dim * N, y⟩ := fun y =>
    contactCost_apart N dim D sqrt c d hdim h0 hap fun r hr => by simp [heldAt, hr]
  have hidem : ∀ y, heldAt D g (heldAt D g y) = heldAt D g y := fun y => by
    funext r; by_cases h : D r <;> simp [heldAt, h]
  have hzero : ∀ y, (∑ r ∈ Finset.range (dim * N), if D r then (heldAt D g y r - g r) ^ 2 else 0) = 0 := by
    intro y
    refine Finset.sum_eq_zero fun r _ => ?_
    by_cases h : D r <;> simp [heldAt, h]
  have hnn : ∀ y : ℕ → K, 0 ≤ ∑ r ∈ Finset.range (dim * N), if D r then (y r - g r) ^ 2 else 0 := fun y =>
    Finset.sum_nonneg fun r _ => by split_ifs <;> positivity
  have hmin : ∀ y, energy (dim * N) S (heldAt D g x) +
      1 / 2 * (∑ r ∈ Finset.range (dim * N), if D r then (x r - g r) ^ 2 else 0) +
        contactCostFunctional sqrt c d ⟨dim * N, x⟩ ≤
      energy (dim * N) S (heldAt D g y) + contactCostFunctional sqrt c d ⟨dim * N, y⟩ := by
    intro y
    have h := hx (heldAt D g y)
    simp only [hcost, hk, hidem, hzero, hheld] at h
    linarith
  refine ⟨⟨fun r hr hD => ?_, fun v hvg => ?_⟩, fun r hr => ?_⟩
  · rw [hu]; simp [heldAt, hD]
  · have hvv : energy (dim * N) S (heldAt D g v) = energy (dim * N) S v := by
      have : ∀ r < dim * N, heldAt D g v r = v r := fun r hr => by
        by_cases h : D r
        · simp [heldAt, h, hvg r hr h]
        · simp [heldAt, h]
      unfold energy quad
      congr 1
      · congr 1
        refine Finset.sum_congr rfl fun r hr => ?_
        rw [this r (Finset.mem_range.1 hr), Finset.sum_congr rfl fun s hs => by
          rw [this s (Finset.mem_range.1 hs)]]
      · exact Finset.sum_congr rfl fun r hr => by rw [this r (Finset.mem_range.1 hr)]
    have h1 := hmin v
    have h2 := hnn x
    simp only [hcost', hu, hheld]
    rw [hvv] at h1
    linarith
  · rw [hu]
    by_cases hD : D r
    · have h1 := hmin x
      have h2 := hnn x
      have h3 : (∑ r ∈ Finset.range (dim * N), if D r then (x r - g r) ^ 2 else 0) = 0 := by linarith
      rw [Finset.sum_eq_zero_iff_of_nonneg (fun r _ => by split_ifs <;> positivity)] at h3
      have h4 := h3 r (Finset.mem_range.2 hr)
      rw [if_pos hD] at h4
      have h5 : x r - g r = 0 := by simpa using h4
      simp only [heldAt, hD, if_true]
      linarith
    · simp [heldAt, hD]

end algebra

section forces
variable {K : Type} [Field K]

/-- Sums over all unknowns, coordinate by coordinate. -/
theorem sum_unknowns (N dim : ℕ) (f : ℕ → K) :
    ∑ r ∈ Finset.range (dim * N), f r = ∑ i ∈ Finset.range dim, ∑ p ∈ Finset.range N, f (i * N + p) := by
  induction dim with
  | zero => simp
  | succ dim ih => rw [Nat.succ_mul, Finset.sum_range_add, ih, Finset.sum_range_succ]

/-- Counting the nodes of a surface. -/
theorem sum_count (N : ℕ) (edge : List ℕ) (hn : ∀ node ∈ edge, node < N) (F : ℕ → K) :
    ∑ p ∈ Finset.range N, (edge.count p : K) * F p = (edge.map F).sum := by
  induction edge with
  | nil => simp
  | cons a l ih =>
    have h1 : ∀ p, (((a :: l).count p : ℕ) : K) * F p =
        (l.count p : K) * F p + if p = a then F p else 0 := by
      intro p
      rw [List.count_cons]
      by_cases h : a = p
      · subst h; simp; ring
      · have h' : ¬ p = a := fun e => h e.symm
        simp [h, h']
    rw [Finset.sum_congr rfl fun p _ => h1 p, Finset.sum_add_distrib,
      ih fun node h => hn node (List.mem_cons_of_mem _ h), Finset.sum_ite_eq',
      if_pos (Finset.mem_range.2 (hn a List.mem_cons_self)), List.map_cons, List.sum_cons, add_comm]

theorem sum_list_comm {β : Type _} (n : ℕ) (l : List β) (F : ℕ → β → K) :
    ∑ r ∈ Finset.range n, (l.map (F r)).sum = (l.map fun b => ∑ r ∈ Finset.range n, F r b).sum := by
  induction l with
  | nil => simp
  | cons b l ih => simp only [List.map_cons, List.sum_cons, Finset.sum_add_distrib, ih]

theorem nodeValue_known {N dim : ℕ} (h0 : 0 < dim) (x : ℕ → K) (old : Flat K) {node : ℕ} (hn : node < N) :
    nodeValue dim ⟨dim * N, x⟩ old node = fun i => x (i * N + node) := by
  funext i
  unfold nodeValue
  simp only [Nat.mul_div_cancel_left _ h0, if_pos hn]

theorem meanOver_known {N dim : ℕ} (h0 : 0 < dim) (x : ℕ → K) (old : Flat K) (edge : List ℕ)
    (hn : ∀ node ∈ edge, node < N) :
    meanOver edge (nodeValue dim ⟨dim * N, x⟩ old) = meanOver edge fun node i => x (i * N + node) := by
  funext i
  unfold meanOver
  rw [List.map_congr_left fun node hnode => by rw [nodeValue_known h0 x old (hn node hnode)]]

/-- The derivative of the contact cost in a direction is the work of the contact forces. -/
theorem work_contactForces [CharZero K] (sqrt : K → K) (p : K → K → K → K) (d : ContactData K) (N : ℕ)
    (hdim : 1 < d.variableDimension) (he : ∀ s ∈ d.surfaces, s.edge ≠ [])
    (hn : ∀ s ∈ d.surfaces, ∀ node ∈ s.edge, node < N) (x h : ℕ → K) :
    (d.surfaces.map (surfaceDerivative sqrt p d ⟨d.variableDimension * N, x⟩ h)).sum =
      ∑ r ∈ Finset.range (d.variableDimension * N), contactForces sqrt p d N x r * h r := by
  have h0 : 0 < d.variableDimension := by omega
  have h1 : d.variableDimension ≠ 1 := by omega
  rw [sum_unknowns]
  have e1 : ∀ i, ∀ q ∈ Finset.range N, contactForces sqrt p d N x (i * N + q) * h (i * N + q) =
      (d.surfaces.map fun s => (s.edge.count q : K) * (sampleWeight sqrt d s * s.normal i *
        (pressure p d s (meanOver s.edge fun node i => x (i * N + node)) / (s.edge.length : K) +
          pressure p d s fun i => x (i * N + q)) * h (i * N + q))).sum := by
    intro i q hq
    have hq := Finset.mem_range.1 hq
    have hN : 0 < N := by omega
    unfold contactForces contactForce
    rw [show (i * N + q) / N = i by
        rw [Nat.mul_comm, Nat.mul_add_div hN, Nat.div_eq_of_lt hq, add_zero],
      show (i * N + q) % N = q by rw [Nat.mul_comm, Nat.mul_add_mod, Nat.mod_eq_of_lt hq],
      mul_comm, ← sum_map_mul]
    exact congrArg _ (List.map_congr_left fun s _ => by ring)
  rw [Finset.sum_congr rfl fun i _ => Finset.sum_congr rfl (e1 i)]
  simp only [sum_list_comm]
  refine congrArg _ (List.map_congr_left fun s hs => ?_)
  rw [Finset.sum_congr rfl fun i _ => sum_count N s.edge (hn s hs) _]
  unfold surfaceDerivative
  simp only [meanOver_known h0 x d.old s.edge (hn s hs)]
  have e2 : directionField d.variableDimension (d.variableDimension * N) h =
      nodeValue d.variableDimension ⟨d.variableDimension * N, h⟩ ⟨0, fun _ => 0⟩ := rfl
  rw [e2, normalComponent_mean _ _ (nodeValue _ _ (⟨0, fun _ => 0⟩ : Flat K))]
  have hL : (s.edge.length : K) ≠ 0 := by
    exact_mod_cast fun h => he s hs (List.length_eq_zero_iff.1 h)
  rw [← mul_div_assoc, ← sum_map_mul, div_eq_mul_inv _ (s.edge.length : K), mul_comm _ (s.edge.length : K)⁻¹,
    ← sum_map_mul, ← sum_map_add', ← sum_map_mul, sum_list_comm]
  refine congrArg _ (List.map_congr_left fun node hnode => ?_)
  rw [nodeValue_known h0 x d.old (hn s hs node hnode), nodeValue_known h0 h _ (hn s hs node hnode)]
  unfold normalComponent
  simp only [if_neg h1]
  unfold pressure sampleWeight normalComponent
  simp only [if_neg h1]
  rw [Finset.mul_sum, Finset.mul_sum, Finset.mul_sum, ← Finset.sum_add_distrib, Finset.mul_sum]
  refine Finset.sum_congr rfl fun i _ => ?_
  rw [show staticN d s = surfaceStatic d s from rfl]
  field_simp

end forces

section balance
variable (N : ℕ) (D : ℕ → Prop) [DecidablePred D] (g : ℕ → ℝ)

/-- The unit vector. -/
theorem dot_unit (n : ℕ) (f : ℕ → ℝ) {r : ℕ} (hr : r < n) :
    ∑ s ∈ Finset.range n, f s * (if s = r then (1 : ℝ) else 0) = f r := by
  simp [Finset.mem_range.2 hr, hr]

omit [DecidablePred D] in
/-- C101: a field of least energy among those with the prescribed values is in balance: the loads and the
contact forces are carried by the body, up to reactions at the supports. The law has no friction and is
differentiable at the displacements that occur. -/
theorem C101_balance (j p : ℝ → ℝ → ℝ → ℝ) (d : ContactData ℝ) (hdim : 1 < d.variableDimension)
    (he : ∀ s ∈ d.surfaces, s.edge ≠ []) (hn : ∀ s ∈ d.surfaces, ∀ node ∈ s.edge, node < N)
    (S : System ℝ) (hA : ∀ r < d.variableDimension * N, ∀ s < d.variableDimension * N, S.lhs r s = S.lhs s r)
    (u : ℕ → ℝ)
    (hj : ∀ s ∈ d.surfaces, ∀ a ∈ samplePoints d ⟨d.variableDimension * N, u⟩ s,
      HasDerivAt (fun y => j y (surfaceStatic d s) d.dt) (p a (surfaceStatic d s) d.dt) a)
    (hu : HeldMinimiser (d.variableDimension * N) D g (fun y => costFunctional Real.sqrt (frictionless j) d
      (d.variableDimension * N) S.lhs S.rhs ⟨d.variableDimension * N, y⟩) u) :
    BalancedField (d.variableDimension * N) S.lhs D g
      (fun r => S.rhs r - contactForces Real.sqrt p d N u r) u := by
  refine ⟨hu.1, fun r hr hD => ?_⟩
  have h1 := C49_derivative j p d (d.variableDimension * N) S hA u (fun s => if s = r then 1 else 0) hj
  have h2 := IsLocalMin.hasDerivAt_eq_zero (f := fun t : ℝ => costFunctional Real.sqrt (frictionless j) d
    (d.variableDimension * N) S.lhs S.rhs
    ⟨d.variableDimension * N, fun k => u k + t * if k = r then (1 : ℝ) else 0⟩) (a := 0)
    (Filter.Eventually.of_forall fun t => ?_) h1
  · rw [work_contactForces Real.sqrt p d N hdim he hn] at h2
    unfold dot at h2
    rw [dot_unit _ _ hr, dot_unit _ _ hr] at h2
    unfold act
    linarith
  · have h3 := hu.2 (fun k => u k + t * if k = r then (1 : ℝ) else 0) fun s hs hDs => by
      rw [if_neg (fun h : s = r => hD (h ▸ hDs)), mul_zero, add_zero]; exact hu.1 s hs hDs
    simpa using h3

/-- C101, against the full statement: at a minimiser of what the backend is given, every unknown of a
support is off its value by the contact force there, and the field that is handed back is in balance with
the contact forces of that other field. -/
theorem C101_supports_wrong (j p : ℝ → ℝ → ℝ → ℝ) (d : ContactData ℝ) (hdim : 1 < d.variableDimension)
    (bs : List (CondBoundary ℝ)) (hv : ValidBoundaries N bs)
    (hd : DirichletData N d.variableDimension bs D g)
    (he : ∀ s ∈ d.surfaces, s.edge ≠ []) (hn : ∀ s ∈ d.surfaces, ∀ node ∈ s.edge, node < N)
    (S : System ℝ) (hA : ∀ r < d.variableDimension * N, ∀ s < d.variableDimension * N, S.lhs r s = S.lhs s r)
    (solveImpl : (ℕ → ℝ) → ℕ → ℝ) (guess : ℕ → ℝ)
    (hj : ∀ s ∈ d.surfaces, ∀ a ∈ samplePoints d ⟨d.variableDimension * N, solveImpl guess⟩ s,
      HasDerivAt (fun y => j y (surfaceStatic d s) d.dt) (p a (surfaceStatic d s) d.dt) a)
    (hx : Minimises (fun y => costFunctional Real.sqrt (frictionless j) d (d.variableDimension * N)
      (applyDirichlet N d.variableDimension bs S).lhs (applyDirichlet N d.variableDimension bs S).rhs
      ⟨d.variableDimension * N, y⟩) (solveImpl guess)) :
    let x := solveImpl guess
    let u := solverSolve solveImpl N d.variableDimension bs guess
    let F := contactForces Real.sqrt p d N x
    (∀ r < d.variableDimension * N, D r → x r = g r - F r) ∧
    BalancedField (d.variableDimension * N) S.lhs D g (fun r => S.rhs r - F r) u := by
  intro x u F
  have hu : u = heldAt D g x := by
    funext r
    exact C16_solution_satisfies_dirichlet N d.variableDimension bs D g solveImpl guess hv hd r
  have hc := C14_all_at_once_partial N d.variableDimension bs S D g hv hd
  have key : ∀ r < d.variableDimension * N,
      ∑ s ∈ Finset.range (d.variableDimension * N), (applyDirichlet N d.variableDimension bs S).lhs r s * x s -
        (applyDirichlet N d.variableDimension bs S).rhs r + F r = 0 := by
    intro r hr
    have h1 := C49_derivative j p d (d.variableDimension * N) (applyDirichlet N d.variableDimension bs S)
      (C13_symmetric N d.variableDimension bs S D g hv hd hA) x (fun s => if s = r then 1 else 0) hj
    have h2 := IsLocalMin.hasDerivAt_eq_zero (f := fun t : ℝ => costFunctional Real.sqrt (frictionless j) d
      (d.variableDimension * N) (applyDirichlet N d.variableDimension bs S).lhs
      (applyDirichlet N d.variableDimension bs S).rhs
      ⟨d.variableDimension * N, fun k => x k + t * if k = r then (1 : ℝ) else 0⟩) (a := 0)
      (Filter.Eventually.of_forall fun t => by
        simpa using hx fun k => x k + t * if k = r then (1 : ℝ) else 0) h1
    rw [work_contactForces Real.sqrt p d N hdim he hn] at h2
    unfold dot at h2
    rw [dot_unit _ _ hr, dot_unit _ _ hr] at h2
    exact h2
  refine ⟨fun r hr hD => ?_, fun r hr hD => ?_, fun r hr hD => ?_⟩
  · have h1 := key r hr
    rw [(hc r).2, if_pos hD, Finset.sum_eq_single r] at h1
    · rw [(hc r).1 r] at h1
      simp [hD] at h1
      linarith
    · intro s _ hs; rw [(hc r).1 s]; simp [hD, hs.symm]
    · intro h; exact absurd (Finset.mem_range.2 hr) h
  · rw [hu]; simp [heldAt, hD]
  · have h1 := key r hr
    rw [(hc r).2, if_neg hD] at h1
    have h2 : ∑ s ∈ Finset.range (d.variableDimension * N),
        (applyDirichlet N d.variableDimension bs S).lhs r s * x s +
        (∑ s ∈ Finset.range (d.variableDimension * N), if D s then S.lhs r s * g s else 0) =
        act (d.variableDimension * N) S.lhs u r := by
      rw [hu, ← Finset.sum_add_distrib]
      unfold act
      refine Finset.sum_congr rfl fun s _ => ?_
      rw [(hc r).1 s]
      by_cases h2 : D s
      · have hrs : r ≠ s := by rintro rfl; exact hD h2
        simp [heldAt, h2, hrs]
      · simp [heldAt, hD, h2]
    linarith

end balance
section statics
variable {K : Type} [Field K] {N : ℕ} {elements : List (List ℕ)} {nodes : ℕ → ℕ → K}

theorem sum_two (N : ℕ) (x : ℕ → K) :
    ∑ r ∈ Finset.range (2 * N), x r = ∑ p ∈ Finset.range N, (x p + x (N + p)) := by
  rw [two_mul, Finset.sum_range_add, Finset.sum_add_distrib]

/-- The work of the contact forces along a rigid motion of the plane, sample by sample. -/
theorem rigid_work [CharZero K] (sqrt : K → K) (p : K → K → K → K) (d : ContactData K)
    (hdim : d.variableDimension = 2) (he : ∀ s ∈ d.surfaces, s.edge ≠ [])
    (hn : ∀ s ∈ d.surfaces, ∀ node ∈ s.edge, node < N) (u : ℕ → K) (c : ℕ → K) (w : K) (nodes : ℕ → ℕ → K) :
    ∑ q ∈ Finset.range N, (contactForces sqrt p d N u q * (c 0 - w * nodes q 1) +
      contactForces sqrt p d N u (N + q) * (c 1 + w * nodes q 0)) =
    overSamples sqrt d (fun node i => u (i * N + node)) nodes fun s place x => pressure p d s x *
      (s.normal 0 * (c 0 - w * place 1) + s.normal 1 * (c 1 + w * place 0)) := by
  let z : ℕ → K := fun r => if r < N then c 0 - w * nodes r 1 else c 1 + w * nodes (r - N) 0
  have h0 : 0 < d.variableDimension := by omega
  have h1 := work_contactForces sqrt p d N (by omega) he hn u z
  rw [hdim, sum_two] at h1
  rw [Finset.sum_congr rfl fun q hq => show contactForces sqrt p d N u q * (c 0 - w * nodes q 1) +
      contactForces sqrt p d N u (N + q) * (c 1 + w * nodes q 0) = contactForces sqrt p d N u q * z q +
      contactForces sqrt p d N u (N + q) * z (N + q) by simp [z, Finset.mem_range.1 hq], ← h1]
  unfold overSamples
  refine congrArg _ (List.map_congr_left fun s hs => ?_)
  have hL : (s.edge.length : K) ≠ 0 := by
    exact_mod_cast fun h => he s hs (List.length_eq_zero_iff.1 h)
  have hz : ∀ node ∈ s.edge, directionField 2 (2 * N) z node = fun i => z (i * N + node) := fun node hnode =>
    nodeValue_known (by norm_num) z _ (hn s hs node hnode)
  have hm0 : meanOver s.edge (directionField 2 (2 * N) z) 0 = c 0 - w * meanOver s.edge nodes 1 := by
    unfold meanOver
    rw [List.map_congr_left fun node hnode => show directionField 2 (2 * N) z node 0 =
      c 0 + -w * nodes node 1 by rw [hz node hnode]; simp [z, hn s hs node hnode, sub_eq_add_neg],
      sum_map_add', sum_map_mul, List.map_const', List.sum_replicate, nsmul_eq_mul]
    field_simp
    ring
  have hm1 : meanOver s.edge (directionField 2 (2 * N) z) 1 = c 1 + w * meanOver s.edge nodes 0 := by
    unfold meanOver
    rw [List.map_congr_left fun node hnode => show directionField 2 (2 * N) z node 1 =
      c 1 + w * nodes node 0 by rw [hz node hnode]; simp [z],
      sum_map_add', sum_map_mul, List.map_const', List.sum_replicate, nsmul_eq_mul]
    field_simp
  unfold surfaceDerivative
  have hk := meanOver_known (by norm_num : 0 < 2) u d.old s.edge (hn s hs)
  simp only [hdim, hk]
  unfold sampleWeight
  congr 1
  congr 1
  · unfold pressure
    rw [hdim]
    congr 1
    unfold normalComponent
    simp only [OfNat.ofNat_ne_one, if_false, Finset.sum_range_succ, Finset.sum_range_zero, hm0, hm1]
    ring
  · refine congrArg _ (List.map_congr_left fun node hnode => ?_)
    rw [hz node hnode, nodeValue_known (by norm_num) u d.old (hn s hs node hnode)]
    unfold pressure
    rw [hdim]
    congr 1
    have hlt := hn s hs node hnode
    unfold normalComponent
    simp only [OfNat.ofNat_ne_one, if_false, Finset.sum_range_succ, Finset.sum_range_zero]
    simp [z, hlt]
    ring

variable [LinearOrder K] [IsStrictOrderedRing K]

/-- C101: there are reactions at the supports only. Their resultant and their moment are those of the
loads with the opposite sign, plus those of the pressures on the contact surfaces. -/
theorem C101_reactions (hv : ValidElements 2 N elements) (hnd : Nondegenerate2 elements nodes) (mu lam : K)
    (sqrt : K → K) (p : K → K → K → K) (d : ContactData K)
    (hdim : d.variableDimension = 2) (he : ∀ s ∈ d.surfaces, s.edge ≠ [])
    (hn : ∀ s ∈ d.surfaces, ∀ node ∈ s.edge, node < N) (D : ℕ → Prop) (g f u : ℕ → K)
    (h : BalancedField (2 * N) (Plane.constitutive N (basicMatrices2 elements nodes).W mu lam) D g
      (fun r => f r - contactForces sqrt p d N u r) u) :
    let R := reaction (2 * N) (Plane.constitutive N (basicMatrices2 elements nodes).W mu lam)
      (fun r => f r - contactForces sqrt p d N u r) u
    let onSurfaces := overSamples sqrt d (fun node i => u (i * N + node)) nodes
    (∀ r < 2 * N, ¬ D r → R r = 0) ∧
    ∑ q ∈ Finset.range N, R q = -(∑ q ∈ Finset.range N, f q) +
      onSurfaces (fun s _ x => pressure p d s x * s.normal 0) ∧
    ∑ q ∈ Finset.range N, R (N + q) = -(∑ q ∈ Finset.range N, f (N + q)) +
      onSurfaces (fun s _ x => pressure p d s x * s.normal 1) ∧
    ∑ q ∈ Finset.range N, (nodes q 0 * R (N + q) - nodes q 1 * R q) =
      -(∑ q ∈ Finset.range N, (nodes q 0 * f (N + q) - nodes q 1 * f q)) +
      onSurfaces (fun s place x => pressure p d s x * (place 0 * s.normal 1 - place 1 * s.normal 0)) := by
  intro R onSurfaces
  have key : ∀ (c : ℕ → K) (w : K), ∑ q ∈ Finset.range N,
      (R q * (c 0 - w * nodes q 1) + R (N + q) * (c 1 + w * nodes q 0)) =
      -(∑ q ∈ Finset.range N, (f q * (c 0 - w * nodes q 1) + f (N + q) * (c 1 + w * nodes q 0))) +
      onSurfaces fun s place x => pressure p d s x *
        (s.normal 0 * (c 0 - w * place 1) + s.normal 1 * (c 1 + w * place 0)) := by
    intro c w
    let z : ℕ → K := fun r => if r < N then c 0 - w * nodes r 1 else c 1 + w * nodes (r - N) 0
    have hz : RigidMotion 2 N nodes z := by
      refine ⟨c, fun a k => if a = 0 ∧ k = 1 then -w else if a = 1 ∧ k = 0 then w else 0, ?_, ?_⟩
      · intro a ha k hk
        interval_cases a <;> interval_cases k <;> simp
      · intro a ha p hp
        interval_cases a
        · simp [z, hp, Finset.sum_range_succ, sub_eq_add_neg]
        · simp [z, Finset.sum_range_succ]
    have h1 := (C99_reactions z ((C72_rigid2 hv hnd mu lam 0 z).1 hz) h).2
    unfold work at h1
    rw [sum_plane, sum_plane] at h1
    have h2 : ∀ y : ℕ → K, ∑ p ∈ Finset.range N, (y p * z p + y (N + p) * z (N + p)) =
        ∑ p ∈ Finset.range N, (y p * (c 0 - w * nodes p 1) + y (N + p) * (c 1 + w * nodes p 0)) := by
      intro y
      refine Finset.sum_congr rfl fun p hp => ?_
      simp [z, Finset.mem_range.1 hp]
    rw [h2 (reaction _ _ _ _), h2 fun r => f r - contactForces sqrt p d N u r] at h1
    change ∑ q ∈ Finset.range N, (R q * (c 0 - w * nodes q 1) + R (N + q) * (c 1 + w * nodes q 0)) = _ at h1
    rw [h1]
    have h3 := rigid_work sqrt p d hdim he hn u c w nodes
    change _ = onSurfaces _ at h3
    rw [← h3, ← Finset.sum_neg_distrib, ← Finset.sum_neg_distrib, ← Finset.sum_add_distrib]
    exact Finset.sum_congr rfl fun q _ => by ring
  refine ⟨fun r hr hD => h.reaction_zero hr hD, ?_, ?_, ?_⟩
  · simpa using key (fun a => if a = 0 then 1 else 0) 0
  · simpa using key (fun a => if a = 1 then 1 else 0) 0
  · have := key (fun _ => 0) 1
    simp only [zero_sub, zero_add, one_mul] at this
    rw [Finset.sum_congr rfl fun p _ => show nodes p 0 * R (N + p) - nodes p 1 * R p =
      R p * -nodes p 1 + R (N + p) * nodes p 0 by ring, this]
    congr 1
    · exact congrArg _ (Finset.sum_congr rfl fun p _ => by ring)
    · congr 1
      funext s place x
      ring

omit [LinearOrder K] [IsStrictOrderedRing K] in
/-- C101: the contact forces act at nodes of contact surfaces only, and only where the law has a
pressure. -/
theorem C101_nothing (sqrt : K → K) (p : K → K → K → K) (d : ContactData K) (u : ℕ → ℕ → K) (i node : ℕ)
    (h : ∀ s ∈ d.surfaces, node ∈ s.edge →
      pressure p d s (meanOver s.edge u) = 0 ∧ pressure p d s (u node) = 0) :
    contactForce sqrt p d u i node = 0 := by
  unfold contactForce
  refine List.sum_eq_zero fun a ha => ?_
  obtain ⟨s, hs, rfl⟩ := List.mem_map.1 ha
  by_cases hmem : node ∈ s.edge
  · obtain ⟨h1, h2⟩ := h s hs hmem
    rw [h1, h2]; ring
  · rw [List.count_eq_zero_of_not_mem hmem]; simp

/-- C101: the body pushes and never pulls: if the pressures are nonnegative, the force on the obstacle has a
nonnegative component in every direction that no normal of a surface at the node points away from. -/
theorem C101_pushes (sqrt : K → K) (hs : IsSqrt sqrt) (p : K → K → K → K) (d : ContactData K)
    (hp : ∀ x static, 0 ≤ p x static d.dt) (u : ℕ → ℕ → K) (node dim : ℕ) (w : ℕ → K)
    (hw : ∀ s ∈ d.surfaces, node ∈ s.edge → 0 ≤ ∑ i ∈ Finset.range dim, s.normal i * w i) :
    0 ≤ ∑ i ∈ Finset.range dim, contactForce sqrt p d u i node * w i := by
  have e : ∀ i, contactForce sqrt p d u i node * w i = (d.surfaces.map fun s =>
      (s.edge.count node : K) * (sampleWeight sqrt d s * s.normal i *
        (pressure p d s (meanOver s.edge u) / (s.edge.length : K) + pressure p d s (u node))) * w i).sum := by
    intro i
    unfold contactForce
    rw [mul_comm, ← sum_map_mul]
    exact congrArg _ (List.map_congr_left fun s _ => by ring)
  rw [Finset.sum_congr rfl fun i _ => e i, sum_list_comm]
  refine List.sum_nonneg fun a ha => ?_
  obtain ⟨s, hmem, rfl⟩ := List.mem_map.1 ha
  by_cases hnode : node ∈ s.edge
  · have h1 := hw s hmem hnode
    have h2 : 0 ≤ sampleWeight sqrt d s := by
      unfold sampleWeight
      exact div_nonneg (hs _ (by positivity)).1 (Nat.cast_nonneg _)
    have h3 : 0 ≤ pressure p d s (meanOver s.edge u) / (s.edge.length : K) + pressure p d s (u node) :=
      add_nonneg (div_nonneg (hp _ _) (Nat.cast_nonneg _)) (hp _ _)
    have h4 : ∑ i ∈ Finset.range dim, (s.edge.count node : K) * (sampleWeight sqrt d s * s.normal i *
        (pressure p d s (meanOver s.edge u) / (s.edge.length : K) + pressure p d s (u node))) * w i =
        (s.edge.count node : K) * sampleWeight sqrt d s *
        (pressure p d s (meanOver s.edge u) / (s.edge.length : K) + pressure p d s (u node)) *
        ∑ i ∈ Finset.range dim, s.normal i * w i := by
      rw [Finset.mul_sum]
      exact Finset.sum_congr rfl fun i _ => by ring
    rw [h4]
    positivity
  · rw [List.count_eq_zero_of_not_mem hnode]; simp

/-- The contact cost of a law that is never negative is not negative, and it is zero without penetration. -/
theorem contactCost_nonneg (sqrt : K → K) (hs : IsSqrt sqrt) (j : K → K → K → K) (d : ContactData K)
    (hj : ∀ x static, 0 ≤ j x static d.dt) (var : Flat K) :
    0 ≤ contactCostFunctional sqrt (frictionless j) d var := by
  rw [contactCostFunctional_eq]
  refine List.sum_nonneg fun a ha => ?_
  obtain ⟨s, -, rfl⟩ := List.mem_map.1 ha
  unfold surfaceCost quadrature
  simp only [density_frictionless]
  refine mul_nonneg (div_nonneg (hs _ (by positivity)).1 (Nat.cast_nonneg _)) (add_nonneg (hj _ _) ?_)
  exact List.sum_nonneg fun a ha => by
    obtain ⟨node, -, rfl⟩ := List.mem_map.1 ha
    exact hj _ _

theorem contactCost_apart_zero (sqrt : K → K) (j : K → K → K → K) (d : ContactData K)
    (hj : ∀ x ≤ 0, ∀ static, j x static d.dt = 0) (var : Flat K)
    (hfree : ∀ s ∈ d.surfaces, ∀ a ∈ nodePoints d var s, a ≤ 0) :
    contactCostFunctional sqrt (frictionless j) d var = 0 := by
  rw [contactCostFunctional_eq]
  refine List.sum_eq_zero fun a ha => ?_
  obtain ⟨s, hs, rfl⟩ := List.mem_map.1 ha
  unfold surfaceCost quadrature
  simp only [density_frictionless, normalComponent_mean]
  have hf := hfree s hs
  unfold nodePoints at hf
  have hsum : (s.edge.map fun node => normalComponent d.variableDimension
      (nodeValue d.variableDimension var d.old node) s.normal).sum ≤ 0 := by
    have := List.sum_le_card_nsmul _ 0 hf
    simpa using this
  rw [hj _ (div_nonpos_of_nonpos_of_nonneg hsum (Nat.cast_nonneg _)),
    List.sum_eq_zero fun a ha => ?_]
  · simp
  · obtain ⟨node, hnode, rfl⟩ := List.mem_map.1 ha
    exact hj _ (hf _ (List.mem_map.2 ⟨node, hnode, rfl⟩)) _

/-- C101: an obstacle that is not touched makes no difference: if the solution without contact does not
penetrate, it is the solution with contact. -/
theorem C101_no_contact (sqrt : K → K) (hs : IsSqrt sqrt) (j : K → K → K → K) (d : ContactData K)
    (hj : ∀ x static, 0 ≤ j x static d.dt) (hj0 : ∀ x ≤ 0, ∀ static, j x static d.dt = 0)
    (n : ℕ) (S : System K) (hA : StoresEnergy n S.lhs) (D : ℕ → Prop) (g u : ℕ → K)
    (hu : BalancedField n S.lhs D g S.rhs u)
    (hfree : ∀ s ∈ d.surfaces, ∀ a ∈ nodePoints d ⟨n, u⟩ s, a ≤ 0) :
    HeldMinimiser n D g (fun y => costFunctional sqrt (frictionless j) d n S.lhs S.rhs ⟨n, y⟩) u := by
  refine ⟨hu.values, fun v hv => ?_⟩
  have h1 := (C99_least_energy hA hu.values).1 hu v hv
  simp only [C48_energy, contactCost_apart_zero sqrt j d hj0 ⟨n, u⟩ hfree]
  have h2 := contactCost_nonneg sqrt hs j d hj ⟨n, v⟩
  linarith

/-- C101: with fixed supports an obstacle stiffens the body: the loads do nonnegative work, and at most as
much as they do without it. -/
theorem C101_work (sqrt : K → K) (hs : IsSqrt sqrt) (j : K → K → K → K) (d : ContactData K)
    (hj : ∀ x static, 0 ≤ j x static d.dt) (hj0 : ∀ x ≤ 0, ∀ static, j x static d.dt = 0)
    (hjc : ∀ static, Convex1 fun x => j x static d.dt) (hold : d.old.get = fun _ => 0)
    (n : ℕ) (S : System K) (hA : StoresEnergy n S.lhs) (D : ℕ → Prop) (u u₀ : ℕ → K)
    (hu : HeldMinimiser n D (fun _ => 0)
      (fun y => costFunctional sqrt (frictionless j) d n S.lhs S.rhs ⟨n, y⟩) u)
    (hu₀ : BalancedField n S.lhs D (fun _ => 0) S.rhs u₀) :
    0 ≤ work n S.rhs u ∧ work n S.rhs u ≤ work n S.rhs u₀ := by
  set q := quad n S.lhs u with hq
  set W := work n S.rhs u with hW
  set c := contactCostFunctional sqrt (frictionless j) d ⟨n, u⟩ with hc
  have hq0 : 0 ≤ q := hA.nonneg u
  have hc0 : 0 ≤ c := contactCost_nonneg sqrt hs j d hj _
  have hcz : contactCostFunctional sqrt (frictionless j) d ⟨n, fun _ => 0⟩ = 0 := by
    refine contactCost_apart_zero sqrt j d hj0 _ fun s _ a ha => ?_
    obtain ⟨node, -, rfl⟩ := List.mem_map.1 ha
    simp [normalComponent, nodeValue, hold]
  have hconv := C48_contact_convex sqrt hs (frictionless j) d (fun s _ sn st =>
    C48_density_convex j _ _ _ _ _ (hjc sn)) n
  have key : ∀ t : K, 0 < t → t ≤ 1 → 0 ≤ W - q - c + t * (1 / 2 * q) := by
    intro t h0 h1
    have h2 := hu.2 (fun i => (1 - t) * u i + t * 0) fun r hr hD => by
      rw [hu.1 r hr hD]; ring
    have h3 := hconv u (fun _ => 0) (1 - t) t (by linarith) h0.le (by ring)
    simp only [hcz, mul_zero, add_zero] at h3
    simp only [C48_energy, mul_zero, add_zero] at h2
    have h4 : energy n S (fun i => (1 - t) * u i) = 1 / 2 * ((1 - t) ^ 2 * q) - (1 - t) * W := by
      unfold energy
      rw [show quad n S.lhs (fun i => (1 - t) * u i) = (1 - t) ^ 2 * q by
        rw [hq]; simp only [quad_eq_bilin]; rw [bilin_smul_left, bilin_smul_right]; ring]
      congr 1
      rw [hW]; unfold work
      rw [Finset.mul_sum]
      exact Finset.sum_congr rfl fun r _ => by ring
    have h5 : energy n S u = 1 / 2 * q - W := rfl
    rw [h4, h5, ← hc] at h2
    have h6 : 0 ≤ t * (W - q - c + t * (1 / 2 * q)) := by nlinarith
    exact nonneg_of_mul_nonneg_right h6 h0
  have hfirst : q + c ≤ W := by
    by_contra hlt
    push Not at hlt
    rcases hq0.eq_or_lt with h | h
    · have := key 1 one_pos le_rfl
      rw [← h] at this hlt
      linarith
    · have hpos : 0 < q + c - W := by linarith
      by_cases h1 : q + c - W ≤ q
      · have := key ((q + c - W) / q) (div_pos hpos h) ((div_le_one h).2 h1)
        have e : (q + c - W) / q * (1 / 2 * q) = 1 / 2 * (q + c - W) := by field_simp
        rw [e] at this
        linarith
      · have := key 1 one_pos le_rfl
        linarith
  refine ⟨by linarith, ?_⟩
  have h1 : work n S.rhs u = bilin n S.lhs u u₀ := hu₀.work_eq hu.1
  have h2 : work n S.rhs u₀ = quad n S.lhs u₀ := by
    rw [quad_eq_bilin]; exact hu₀.work_eq hu₀.values
  have h3 : 0 ≤ quad n S.lhs (fun i => u i - u₀ i) := hA.nonneg _
  have h4 : quad n S.lhs (fun i => u i - u₀ i) = q - 2 * bilin n S.lhs u u₀ + quad n S.lhs u₀ := by
    rw [hq]
    simp only [quad_eq_bilin]
    rw [bilin_sub_left, bilin_sub_right, bilin_sub_right, bilin_symm n S.lhs hA.symm u₀ u]
    ring
  rw [h2]
  have : W = bilin n S.lhs u u₀ := h1
  linarith

end statics
section static
variable {N : ℕ} {elements : List (List ℕ)} {nodes : ℕ → ℕ → ℝ}

/-- C101 for the static problem of an elastic plane body on an obstacle with a slope law (partial: no contact
surface has a node on a support). What is handed back has the least energy among the fields with the
prescribed values, is in balance with its loads and its own contact forces, and its reactions balance both. -/
theorem C101_static_partial (hv : ValidElements 2 N elements) (hnd : Nondegenerate2 elements nodes)
    (mu lam : ℝ) (ops : Operators ℝ) (hN : ops.nodesCount = N) (hdim : ops.dimension = 2)
    (hel : ops.elasticity = Plane.constitutive N (basicMatrices2 elements nodes).W mu lam)
    (bs : List (CondBoundary ℝ)) (D : ℕ → Prop) [DecidablePred D] (g : ℕ → ℝ)
    (hb : ValidBoundaries N bs) (hd : DirichletData N 2 bs D g) (var : Variables ℝ) (S : System ℝ)
    (hS : StatementKind.staticDisplacement.update ops bs var = .ok S)
    (slope : ℝ) (d : ContactData ℝ) (hd2 : d.variableDimension = 2)
    (he : ∀ s ∈ d.surfaces, s.edge ≠ []) (hn : ∀ s ∈ d.surfaces, ∀ node ∈ s.edge, node < N)
    (hap : ContactApart N D d) (solveImpl : (ℕ → ℝ) → ℕ → ℝ) (guess : ℕ → ℝ)
    (hx : Minimises (fun y => costFunctional Real.sqrt (frictionless (slopePotential slope)) d (2 * N)
      S.lhs S.rhs ⟨2 * N, y⟩) (solveImpl guess)) :
    let A := Plane.constitutive N (basicMatrices2 elements nodes).W mu lam
    let f := ops.force 0
    let u := solverSolve solveImpl N 2 bs guess
    let F := contactForces Real.sqrt (slopeSubderivative slope) d N u
    let R := reaction (2 * N) A (fun r => f r - F r) u
    let onSurfaces := overSamples Real.sqrt d (fun node i => u (i * N + node)) nodes
    HeldMinimiser (2 * N) D g (fun y => costFunctional Real.sqrt (frictionless (slopePotential slope)) d
      (2 * N) A f ⟨2 * N, y⟩) u ∧
    BalancedField (2 * N) A D g (fun r => f r - F r) u ∧
    (∀ r < 2 * N, ¬ D r → R r = 0) ∧
    ∑ q ∈ Finset.range N, R q = -(∑ q ∈ Finset.range N, f q) +
      onSurfaces (fun s _ x => pressure (slopeSubderivative slope) d s x * s.normal 0) ∧
    ∑ q ∈ Finset.range N, R (N + q) = -(∑ q ∈ Finset.range N, f (N + q)) +
      onSurfaces (fun s _ x => pressure (slopeSubderivative slope) d s x * s.normal 1) ∧
    ∑ q ∈ Finset.range N, (nodes q 0 * R (N + q) - nodes q 1 * R q) =
      -(∑ q ∈ Finset.range N, (nodes q 0 * f (N + q) - nodes q 1 * f q)) +
      onSurfaces (fun s place x => pressure (slopeSubderivative slope) d s x *
        (place 0 * s.normal 1 - place 1 * s.normal 0)) := by
  intro A f u F R onSurfaces
  obtain ⟨lhs, rhs, h1, h2, h3⟩ := update_eliminated _ ops bs var S hS
  have h1 : A = lhs := hel.symm.trans (Except.ok.inj h1)
  have h2 : f = rhs := Except.ok.inj h2
  rw [hN, show StatementKind.staticDisplacement.dimensionIn ops.dimension = 2 from hdim, ← h1, ← h2] at h3
  rw [h3] at hx
  have hA : ∀ r < 2 * N, ∀ s < 2 * N, A r s = A s r := C26_symmetric hv hnd mu lam
  have hm := (C101_held_partial N 2 bs ⟨A, f⟩ D g hb hd (by norm_num) hA Real.sqrt _ d hd2 hap solveImpl
    guess hx).1
  have hbal : BalancedField (2 * N) A D g (fun r => f r - F r) u := by
    have := C101_balance N D g (slopePotential slope) (slopeSubderivative slope) d (by omega) he hn ⟨A, f⟩
      (by rw [hd2]; exact hA) u (fun s _ a _ => C47_derivative slope _ _ a) (by rw [hd2]; exact hm)
    rwa [hd2] at this
  exact ⟨hm, hbal, C101_reactions hv hnd mu lam Real.sqrt _ d hd2 he hn D g f u hbal⟩

/-! ### A support at the end of a contact surface -/

/-- The system of two nodes on springs of stiffness two, with a force on the first node. -/
noncomputable def springSystem : System ℝ := ⟨fun r s => if r = s then 2 else 0, fun r => if r = 2 then -13 else 0⟩

/-- The second node is held. -/
def heldEnd : List (CondBoundary ℝ) := [⟨.list [1], fun _ => 0⟩]

theorem heldEnd_valid : ValidBoundaries 2 heldEnd ∧
    DirichletData 2 2 heldEnd (fun r => r < 2 * 2 ∧ r % 2 = 1) (fun _ => 0) := by
  refine ⟨?_, ⟨fun r => ⟨?_, ?_⟩, ?_⟩⟩
  · intro b hb
    simp only [heldEnd, List.mem_singleton] at hb
    subst hb
    refine ⟨?_, ?_⟩
    · intro v hv
      simp [nodesOf] at hv
      omega
    · intro i h; simp at h; subst h; simp
  · rintro ⟨h1, h2⟩
    refine ⟨0, _, List.mem_singleton.2 rfl, r / 2, by omega, 0, 1, ?_, by omega, rfl⟩
    simp [nodesOf]
  · rintro ⟨v, b, hb, k, hk, j, n, hn, hr, hv⟩
    simp only [heldEnd, List.mem_singleton] at hb
    subst hb
    simp [nodesOf] at hn
    have : n = 1 := by
      rcases j with _ | j
      · simpa using hn.symm
      · simp at hn
    subst this
    omega
  · rintro x v ⟨b, hb, k, hk, j, n, hn, hr, hv⟩
    simp only [heldEnd, List.mem_singleton] at hb
    subst hb
    exact hv.symm ▸ rfl

/-- What the backend finds: the held node is one off its place. -/
noncomputable def springFound : ℕ → ℝ := fun r => if r = 2 then -2 else if r = 3 then 1 else 0

theorem spring_cost (y : ℕ → ℝ) : contactCostFunctional Real.sqrt (frictionless (slopePotential 12))
    (segmentData 2) ⟨4, y⟩ = 1 / 3 * (slopePotential 12 (-(y 2 + y 3) / 2) 0 1 +
      (slopePotential 12 (-y 2) 0 1 + slopePotential 12 (-y 3) 0 1)) := by
  have hl := segment_length 2
  rw [contactCostFunctional_eq]
  simp only [segmentData] at hl ⊢
  simp [surfaceCost, quadrature, hl, density_frictionless, normalComponent, nodeValue, meanOver,
    slopePotential]
  norm_num
  ring_nf
  congr 1
  exact propext ⟨fun h => by linarith, fun h => by linarith⟩

theorem spring_eliminated (y : ℕ → ℝ) : energy 4 (applyDirichlet 2 2 heldEnd springSystem) y =
    1 / 2 * (2 * y 0 ^ 2 + y 1 ^ 2 + 2 * y 2 ^ 2 + y 3 ^ 2) + 13 * y 2 := by
  have hc := C14_all_at_once_partial 2 2 heldEnd springSystem _ _ heldEnd_valid.1 heldEnd_valid.2
  unfold energy quad
  simp only [Finset.sum_range_succ, Finset.sum_range_zero, (hc _).1, (hc _).2]
  simp [springSystem]
  ring

/-- C101, violated: a support at the end of a contact surface. The backend may return a field that is the
exact minimiser of what it is given, and yet what `Solver.solve` hands back is not in balance with its own
contact forces, and it is not the field of least energy with the prescribed values. -/
theorem C101_support_wrong :
    Minimises (fun y => costFunctional Real.sqrt (frictionless (slopePotential 12)) (segmentData 2) (2 * 2)
      (applyDirichlet 2 2 heldEnd springSystem).lhs (applyDirichlet 2 2 heldEnd springSystem).rhs
      ⟨2 * 2, y⟩) springFound ∧
    let u := solverSolve (fun _ => springFound) 2 2 heldEnd fun _ => 0
    springFound 3 = 1 ∧ u 3 = 0 ∧
    ¬ BalancedField 4 springSystem.lhs (fun r => r < 2 * 2 ∧ r % 2 = 1) (fun _ => 0)
      (fun r => springSystem.rhs r - contactForces Real.sqrt (slopeSubderivative 12) (segmentData 2) 2 u r) u ∧
    ¬ HeldMinimiser 4 (fun r => r < 2 * 2 ∧ r % 2 = 1) (fun _ => 0) (fun y => costFunctional Real.sqrt
      (frictionless (slopePotential 12)) (segmentData 2) 4 springSystem.lhs springSystem.rhs ⟨4, y⟩) u := by
  have hu : solverSolve (fun _ => springFound) 2 2 heldEnd (fun _ => 0) = fun r => if r = 2 then -2 else 0 := by
    funext r
    rw [C16_solution_satisfies_dirichlet 2 2 heldEnd _ _ _ _ heldEnd_valid.1 heldEnd_valid.2 r]
    unfold springFound
    split_ifs <;> first | rfl | omega
  have hbal : ¬ BalancedField 4 springSystem.lhs (fun r => r < 2 * 2 ∧ r % 2 = 1) (fun _ => 0)
      (fun r => springSystem.rhs r - contactForces Real.sqrt (slopeSubderivative 12) (segmentData 2) 2
        (fun r => if r = 2 then -2 else 0) r) (fun r => if r = 2 then -2 else 0) := by
    intro h
    have h2 := h.balance 2 (by norm_num) (by norm_num)
    have hl := segment_length 2
    simp only [segmentData] at hl
    simp [act, springSystem, Finset.sum_range_succ, contactForces, contactForce, segmentData, sampleWeight, hl,
      pressure, normalComponent, meanOver, slopeSubderivative] at h2
    norm_num at h2
  refine ⟨fun y => ?_, by simp [springFound], by rw [hu]; simp, by rw [hu]; exact hbal, fun h => ?_⟩
  · simp only [C48_energy]
    rw [show 2 * 2 = 4 from rfl, spring_cost, spring_cost, spring_eliminated, spring_eliminated]
    have s1 := C47_subgradient (12 : ℝ) 0 1 (1 / 2) (by norm_num) (-(y 2 + y 3) / 2)
    have s2 := C47_subgradient (12 : ℝ) 0 1 2 (by norm_num) (-y 2)
    have s3 := C47_subgradient (12 : ℝ) 0 1 (-1) (by norm_num) (-y 3)
    have v1 : slopePotential (12 : ℝ) (1 / 2) 0 1 = 3 / 2 := by norm_num [slopePotential]
    have v2 : slopePotential (12 : ℝ) 2 0 1 = 24 := by norm_num [slopePotential]
    have v3 : slopePotential (12 : ℝ) (-1) 0 1 = 0 := by norm_num [slopePotential]
    have w1 : slopeSubderivative (12 : ℝ) (1 / 2) 0 1 = 6 := by norm_num [slopeSubderivative]
    have w2 : slopeSubderivative (12 : ℝ) 2 0 1 = 24 := by norm_num [slopeSubderivative]
    have w3 : slopeSubderivative (12 : ℝ) (-1) 0 1 = 0 := by norm_num [slopeSubderivative]
    rw [w1] at s1
    rw [w2] at s2
    rw [w3] at s3
    beta_reduce at s1 s2 s3
    rw [v1] at s1
    rw [v2] at s2
    rw [v3] at s3
    have f0 : springFound 0 = 0 := by simp [springFound]
    have f1 : springFound 1 = 0 := by simp [springFound]
    have f2 : springFound 2 = -2 := by simp [springFound]
    have f3 : springFound 3 = 1 := by simp [springFound]
    rw [f0, f1, f2, f3, show -(-2 + 1 : ℝ) / 2 = 1 / 2 by norm_num, neg_neg, v1, v2, v3]
    nlinarith [sq_nonneg (y 0), sq_nonneg (y 1), sq_nonneg (y 2 + 2), sq_nonneg (y 3 - 1)]
  · rw [hu] at h
    exact hbal (C101_balance 2 _ _ (slopePotential 12) (slopeSubderivative 12) (segmentData 2) (by simp [segmentData])
      (by simp [segmentData]) (by simp [segmentData]) springSystem (by intro r _ s _; simp [springSystem, eq_comm]) _
      (fun s _ a _ => C47_derivative 12 _ _ a) h)

/-! ### The unit square on an obstacle, held at the top -/

/-- The corners of the unit square. -/
noncomputable def plateNodes (p k : ℕ) : ℝ := (([[0, 0], [1, 0], [1, 1], [0, 1]] : List (List ℝ)).getD p []).getD k 0

noncomputable def plateOps (f : ℕ → ℝ) : Operators ℝ where
  nodesCount := 4
  dimension := 2
  elasticity := Plane.constitutive 4 (basicMatrices2 [[0, 1, 2], [0, 2, 3]] plateNodes).W 2 1
  viscosity := Plane.constitutive 4 (basicMatrices2 [[0, 1, 2], [0, 2, 3]] plateNodes).W 1 0
  acceleration := Plane.acceleration 4 (basicMatrices2 [[0, 1, 2], [0, 2, 3]] plateNodes).U 3
  poisson := fun _ _ => 0
  thermalExpansion := fun _ _ => 0
  thermalConductivity := fun _ _ => 0
  permittivity := fun _ _ => 0
  piezoelectricity := fun _ _ => 0
  relaxation := fun _ => .ok fun _ _ => 0
  force := fun _ => f
  bodyTemperature := fun _ _ => 0

theorem plate_mesh : ValidElements 2 4 [[0, 1, 2], [0, 2, 3]] ∧
    Nondegenerate2 [[0, 1, 2], [0, 2, 3]] plateNodes := by
  refine ⟨by unfold ValidElements; decide, ?_⟩
  intro e he
  simp only [List.mem_cons, List.not_mem_nil, or_false] at he
  rcases he with rfl | rfl <;> simp [det2, vertices, plateNodes]

def heldTop : List (CondBoundary ℝ) := [⟨.list [2, 3], fun _ => 0⟩]

theorem heldTop_valid : ValidBoundaries 4 heldTop ∧
    DirichletData 4 2 heldTop (fun r => r < 4 * 2 ∧ 2 ≤ r % 4) (fun _ => 0) := by
  refine ⟨?_, ⟨fun r => ⟨?_, ?_⟩, ?_⟩⟩
  · intro b hb
    simp only [heldTop, List.mem_singleton] at hb
    subst hb
    refine ⟨?_, ?_⟩
    · intro v hv
      simp [nodesOf] at hv
      omega
    · intro i h; simp at h; subst h; simp
  · rintro ⟨h1, h2⟩
    refine ⟨0, _, List.mem_singleton.2 rfl, r / 4, by omega, r % 4 - 2, r % 4, ?_, by omega, rfl⟩
    have : r % 4 = 2 ∨ r % 4 = 3 := by omega
    rcases this with h | h <;> simp [nodesOf, h]
  · rintro ⟨v, b, hb, k, hk, j, n, hn, hr, hv⟩
    simp only [heldTop, List.mem_singleton] at hb
    subst hb
    simp only [nodesOf] at hn
    have : n = 2 ∨ n = 3 := by
      rcases j with _ | _ | j
      · left; simpa using hn.symm
      · right; simpa using hn.symm
      · simp at hn
    omega
  · rintro x v ⟨b, hb, k, hk, j, n, hn, hr, hv⟩
    simp only [heldTop, List.mem_singleton] at hb
    subst hb
    exact hv.symm ▸ rfl

/-- For all loads on the square there is a field as in `C101_static_partial`: the backend finds a minimiser,
and the total of the reactions and the pressures takes up the load. -/
example (f : ℕ → ℝ) : ∃ S x, StatementKind.staticDisplacement.update (plateOps f) heldTop {} = .ok S ∧
    Minimises (fun y => costFunctional Real.sqrt (frictionless (slopePotential 10)) (segmentData 2) (2 * 4)
      S.lhs S.rhs ⟨2 * 4, y⟩) x ∧
    let u := solverSolve (fun _ => x) 4 2 heldTop fun _ => 0
    BalancedField (2 * 4) (plateOps f).elasticity (fun r => r < 4 * 2 ∧ 2 ≤ r % 4) (fun _ => 0)
      (fun r => f r - contactForces Real.sqrt (slopeSubderivative 10) (segmentData 2) 4 u r) u := by
  obtain ⟨S, hS⟩ : ∃ S, StatementKind.staticDisplacement.update (plateOps f) heldTop {} = .ok S := ⟨_, rfl⟩
  have hS' : ∃ S', StatementKind.staticDisplacement.update (plateOps f) heldTop { timeStep := some 1 } = .ok S' ∧
    S' = S := ⟨_, rfl, (Except.ok.inj hS)⟩
  obtain ⟨S', h1, rfl⟩ := hS'
  have h0 : ∀ p, p < 4 → 2 ≤ p → Held [[0, 1, 2], [0, 2, 3]]
      (fun q => q < 4 ∧ (q < 4 * 2 ∧ 2 ≤ q % 4) ∧ 4 + q < 4 * 2 ∧ 2 ≤ (4 + q) % 4) p := fun p h1 h2 =>
    .fixed p (by omega)
  have h00 : Held [[0, 1, 2], [0, 2, 3]]
      (fun q => q < 4 ∧ (q < 4 * 2 ∧ 2 ≤ q % 4) ∧ 4 + q < 4 * 2 ∧ 2 ≤ (4 + q) % 4) 0 :=
    .triangle [0, 2, 3] (by decide) 1 2 0 (by decide) (by decide) (by decide) (by decide)
      (h0 2 (by omega) (by omega)) (h0 3 (by omega) (by omega))
  have h01 : Held [[0, 1, 2], [0, 2, 3]]
      (fun q => q < 4 ∧ (q < 4 * 2 ∧ 2 ≤ q % 4) ∧ 4 + q < 4 * 2 ∧ 2 ≤ (4 + q) % 4) 1 :=
    .triangle [0, 1, 2] (by decide) 0 2 1 (by decide) (by decide) (by decide) (by decide) h00
      (h0 2 (by omega) (by omega))
  obtain ⟨x, hx, -⟩ := ((C89_elasticity2 plate_mesh.1 plate_mesh.2 (by decide) 3 2 1 1 0 (by norm_num)
    (by norm_num) (by norm_num) (by norm_num) (by norm_num) (plateOps f) rfl rfl rfl rfl rfl heldTop _ _
    heldTop_valid.1 heldTop_valid.2 { timeStep := some 1 } 1 one_pos rfl S'
    (frictionless (slopePotential 10)) (segmentData 2) rfl (fun _ _ sn _ =>
      C48_density_convex _ _ _ _ _ _ (C47_convex 10 sn _ (by norm_num)))).2 (by
        intro p hp
        interval_cases p
        · exact h00
        · exact h01
        · exact h0 2 (by omega) (by omega)
        · exact h0 3 (by omega) (by omega))).1 h1
  refine ⟨S', x, hS, hx, ?_⟩
  exact (C101_static_partial plate_mesh.1 plate_mesh.2 2 1 (plateOps f) rfl rfl rfl heldTop _ _ heldTop_valid.1
    heldTop_valid.2 {} S' hS 10 (segmentData 2) rfl (by simp [segmentData]) (by simp [segmentData])
    (by
      intro s hs node hnode i hi
      simp [segmentData] at hs hi
      subst hs
      simp at hnode
      omega) (fun _ => x) (fun _ => 0) hx).2.1

/-- The hypotheses of `C101_no_contact` and `C101_work`: a node pulled away from the obstacle, and a law with
slope ten. -/
example : (∀ x static : ℝ, 0 ≤ slopePotential 10 x static 1) ∧
    (∀ x ≤ (0 : ℝ), ∀ static, slopePotential 10 x static 1 = 0) ∧
    (∀ static : ℝ, Convex1 fun x => slopePotential 10 x static 1) ∧
    BalancedField 4 (fun r s => if r = s then (2 : ℝ) else 0) (fun r => r % 2 = 1) (fun _ => 0)
      (fun r => if r = 2 then 6 else 0) (fun r => if r = 2 then 3 else 0) ∧
    ∀ s ∈ (segmentData 2).surfaces, ∀ a ∈ nodePoints (segmentData 2) ⟨4, fun r => if r = 2 then 3 else 0⟩ s,
      a ≤ 0 := by
  refine ⟨fun x st => C47_nonneg 10 x st 1 (by norm_num), fun x hx st =>
    (C47_zero_iff 10 x st 1 (by norm_num)).1.2 hx, fun st => C47_convex 10 st 1 (by norm_num), ⟨?_, ?_⟩, ?_⟩
  · intro r hr h
    have : r ≠ 2 := by omega
    simp [this]
  · intro r hr h
    simp only [act, ite_mul, zero_mul, Finset.sum_ite_eq, Finset.mem_range.2 hr, if_true]
    split_ifs <;> norm_num
  · intro s hs a ha
    simp [segmentData] at hs
    subst hs
    simp [nodePoints, segmentData, normalComponent, nodeValue, Finset.sum_range_succ] at ha
    rcases ha with rfl | rfl <;> norm_num

end static
end Conmech
