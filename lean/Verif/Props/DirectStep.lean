import Verif.Model.DirectStep
import Verif.Spec.DirectStep
import Verif.Props.SolverIndependence
/-!
C113: the displacement that the direct solver finds for a plane body on an obstacle.
-/
namespace Conmech
open Spec

section forces
variable {K : Type} [Field K]

/-- What the equation of the direct solver takes for the contact forces. The law is evaluated with zeros for
the displacement and the time step. -/
theorem contactPart_eq [CharZero K] (sqrt : K → K) (jn : K → K → K → K) (nodes : ℕ → ℕ → K)
    (surfaces : List (Surface K)) (N : ℕ) (hs : Segments N surfaces) (x : ℕ → K) (r : ℕ) (hr : r < 2 * N) :
    contactPart sqrt jn 2 nodes surfaces ⟨2 * N, x⟩ r =
      sharedForces sqrt (fun y => jn y 0 0) nodes surfaces N x r := by
  have hN : 0 < N := by omega
  have h1 := C49_equation sqrt (fun y _ _ => jn y 0 0) (fun _ _ _ => rfl) (contactOf N nodes surfaces 0 x x) rfl
    ⟨fun _ _ => 0, fun _ => 0⟩ ⟨2 * N, x⟩ rfl (fun s h => by obtain ⟨a, b, h, -⟩ := hs s h; exact ⟨a, b, h⟩) r hr
  have h2 : contactPart sqrt jn 2 nodes surfaces ⟨2 * N, x⟩ r =
      contactSubgradient sqrt (subgradientConditions fun y _ _ => jn y 0 0) (contactOf N nodes surfaces 0 x x)
        ⟨2 * N, x⟩ r := by
    simp only [directEquation, subgradientFunctional, if_pos hr, zero_mul, Finset.sum_const_zero, zero_add,
      sub_zero, Bool.false_eq_true, if_false] at h1
    exact h1
  have h3 := dot_contactSubgradient sqrt (subgradientConditions fun y _ _ => jn y 0 0)
    (contactOf N nodes surfaces 0 x x) ⟨2 * N, x⟩ (fun s => if s = r then 1 else 0)
  rw [h2]
  unfold dot at h3
  simp only [mul_ite, mul_one, mul_zero, Finset.sum_ite_eq', Finset.mem_range, if_pos hr] at h3
  rw [h3]
  unfold sharedForces sharedForce
  refine congrArg _ (List.map_congr_left fun s hs' => ?_)
  obtain ⟨a, b, hab, ha, hb⟩ := hs s hs'
  have hcost : surfaceCost sqrt (subgradientConditions fun y _ _ => jn y 0 0) (contactOf N nodes surfaces 0 x x)
      ⟨2 * N, x⟩ s = surfaceForce sqrt (fun y => jn y 0 0) nodes (fun node i => x (i * N + node)) s := by
    have hn : ∀ node ∈ s.edge, node < N := by rw [hab]; simp [ha, hb]
    rw [surfaceCost_subgradient]
    unfold surfaceForce
    simp only [contactOf]
    rw [meanOver_known (by norm_num) x _ s.edge hn, List.map_congr_left fun node hnode => by
      rw [nodeValue_known (by norm_num) x _ (hn node hnode)]]
    simp only [normalComponent, penetration, Finset.sum_range_succ, Finset.sum_range_zero,
      OfNat.ofNat_ne_one, if_false, zero_add]
  rw [hcost]
  have hdir : ∀ node < N, ∀ i, directionField 2 (2 * N) (fun s => if s = r then (1 : K) else 0) node i =
      if i = r / N ∧ node = r % N then 1 else 0 := by
    intro node hnode i
    unfold directionField
    rw [nodeValue_known (by norm_num) _ _ hnode]
    have : i * N + node = r ↔ i = r / N ∧ node = r % N := by
      constructor
      · rintro rfl
        rw [Nat.mul_comm, Nat.mul_add_div hN, Nat.div_eq_of_lt hnode, Nat.mul_add_mod, Nat.mod_eq_of_lt hnode]
        exact ⟨rfl, rfl⟩
      · rintro ⟨rfl, rfl⟩
        rw [Nat.mul_comm]; exact Nat.div_add_mod r N
    simp only [this]
  have hq : r / N < 2 := Nat.div_lt_of_lt_mul (by rw [Nat.mul_comm]; exact hr)
  change _ * ∑ i ∈ Finset.range 2, meanOver s.edge (directionField 2 (2 * N) fun s => if s = r then (1 : K) else 0) i *
    s.normal i = _
  have hmean : ∀ i, meanOver s.edge (directionField 2 (2 * N) fun s => if s = r then (1 : K) else 0) i =
      if i = r / N then (s.edge.count (r % N) : K) / (s.edge.length : K) else 0 := by
    intro i
    unfold meanOver
    rw [hab]
    simp only [List.map_cons, List.map_nil, List.sum_cons, List.sum_nil, hdir a ha, hdir b hb, List.count_cons,
      List.count_nil, beq_iff_eq]
    by_cases hi : i = r / N
    · simp only [hi, true_and, if_true]
      push_cast
      ring
    · simp [hi]
  simp only [hmean, ite_mul, zero_mul, Finset.sum_ite_eq', Finset.mem_range, if_pos hq]
  ring

/-- Where no surface ends there are no forces. -/
theorem sharedForces_zero (sqrt : K → K) (p : K → K) (nodes : ℕ → ℕ → K) (surfaces : List (Surface K)) (N : ℕ)
    (x : ℕ → K) (r : ℕ) (h : ∀ s ∈ surfaces, r % N ∉ s.edge) : sharedForces sqrt p nodes surfaces N x r = 0 := by
  unfold sharedForces sharedForce
  rw [List.map_congr_left (g := fun _ => (0 : K)) fun s hs => by rw [List.count_eq_zero_of_not_mem (h s hs)]; simp]
  simp

/-- The forces depend on the displacements of the nodes of the surfaces only. -/
theorem sharedForces_same (sqrt : K → K) (p : K → K) (nodes : ℕ → ℕ → K) (surfaces : List (Surface K)) (N : ℕ)
    (x y : ℕ → K) (h : ∀ s ∈ surfaces, ∀ node ∈ s.edge, ∀ i < 2, x (i * N + node) = y (i * N + node)) :
    sharedForces sqrt p nodes surfaces N x = sharedForces sqrt p nodes surfaces N y := by
  funext r
  unfold sharedForces sharedForce
  refine congrArg _ (List.map_congr_left fun s hs => ?_)
  have h1 : surfaceForce sqrt p nodes (fun node i => x (i * N + node)) s =
      surfaceForce sqrt p nodes (fun node i => y (i * N + node)) s := by
    unfold surfaceForce
    congr 2
    · unfold penetration meanOver
      rw [List.map_congr_left fun node hn => h s hs node hn 0 (by norm_num),
        List.map_congr_left fun node hn => h s hs node hn 1 (by norm_num)]
    · refine congrArg _ (List.map_congr_left fun node hn => ?_)
      unfold penetration
      beta_reduce
      rw [h s hs node hn 0 (by norm_num), h s hs node hn 1 (by norm_num)]
  rw [h1]

end forces

section found
variable {K : Type} [Field K] [CharZero K] [DecidableEq K] (N : ℕ) (bs : List (CondBoundary K)) (S : System K) (D : ℕ → Prop)
  [DecidablePred D] (g : ℕ → K)

/-- C113. A root of the equation of the direct solver: the unknowns of the supports are off their values by
the contact forces there. After the prescribed values are written over them, the field is in balance with the
contact forces of the root. -/
theorem C113_found (hv : ValidBoundaries N bs) (hd : DirichletData N 2 bs D g) (sqrt : K → K)
    (jn : K → K → K → K) (nodes : ℕ → ℕ → K) (surfaces : List (Surface K)) (hs : Segments N surfaces)
    (x : ℕ → K)
    (hx : ∀ r < 2 * N, directEquation sqrt jn 2 nodes surfaces (applyDirichlet N 2 bs S).lhs
      (applyDirichlet N 2 bs S).rhs ⟨2 * N, x⟩ r = 0) (guess : ℕ → K) :
    let F := sharedForces sqrt (fun y => jn y 0 0) nodes surfaces N x
    (∀ r < 2 * N, D r → x r = g r - F r) ∧
    BalancedField (2 * N) S.lhs D g (fun r => S.rhs r - F r) (solverSolve (fun _ => x) N 2 bs guess) := by
  intro F
  have hu : solverSolve (fun _ => x) N 2 bs guess = heldAt D g x := by
    funext r
    exact C16_solution_satisfies_dirichlet N 2 bs D g (fun _ => x) guess hv hd r
  have hc := C14_all_at_once_partial N 2 bs S D g hv hd
  have key : ∀ r < 2 * N, ∑ s ∈ Finset.range (2 * N), (applyDirichlet N 2 bs S).lhs r s * x s -
        (applyDirichlet N 2 bs S).rhs r + F r = 0 := by
    intro r hr
    have := hx r hr
    unfold directEquation at this
    rw [contactPart_eq sqrt jn nodes surfaces N hs x r hr] at this
    rw [← this]
    ring
  refine ⟨fun r hr hD => ?_, fun r hr hD => ?_, fun r hr hD => ?_⟩
  · have h1 := key r hr
    rw [(hc r).2, if_pos hD, Finset.sum_eq_single r] at h1
    · rw [(hc r).1 r] at h1
      simp [hD] at h1
      linear_combination h1
    · intro s _ hs; rw [(hc r).1 s]; simp [hD, hs.symm]
    · intro h; exact absurd (Finset.mem_range.2 hr) h
  · rw [hu]; simp [heldAt, hD]
  · have h1 := key r hr
    rw [(hc r).2, if_neg hD] at h1
    have h2 : ∑ s ∈ Finset.range (2 * N), (applyDirichlet N 2 bs S).lhs r s * x s +
        (∑ s ∈ Finset.range (2 * N), if D s then S.lhs r s * g s else 0) = act (2 * N) S.lhs (heldAt D g x) r := by
      rw [← Finset.sum_add_distrib]
      unfold act
      refine Finset.sum_congr rfl fun s _ => ?_
      rw [(hc r).1 s]
      by_cases h2 : D s
      · have hrs : r ≠ s := by rintro rfl; exact hD h2
        simp [heldAt, h2, hrs]
      · simp [heldAt, hD, h2]
    rw [hu]
    linear_combination h1 + (-1 : K) * h2

/-- What the direct solver hands back for a law with a function for the subderivative. -/
theorem directSolve_equation {fsolve : RootFinder K} {linalg : LinearSolver K} {m : DirectSetting K}
    {jn : K → K → K → K} {T : System K} {len : ℕ} {guess u : ℕ → K}
    (h : directSolve fsolve linalg m (.equation (.function jn)) N 2 bs T len guess = .ok u) :
    len = 2 * N ∧ (m.dimension = 2 ∨ m.surfaces = []) ∧
      u = solverSolve (fun _ => fsolve (2 * N) (fun x => directEquation m.sqrt jn 2 m.nodes m.surfaces T.lhs T.rhs
        ⟨2 * N, x⟩) guess) N 2 bs guess := by
  unfold directSolve directImpl at h
  by_cases hc : 2 * N = len ∧ (m.dimension = 2 ∨ m.surfaces = [])
  · simp only [if_pos hc, Except.ok.injEq] at h
    obtain ⟨rfl, hc⟩ := hc
    exact ⟨rfl, hc, h.symm⟩
  · simp [if_neg hc] at h

/-- C113 (partial: no contact surface has a held node, and the equation has a solution, see
`C113_none_wrong`). The displacement that the direct solver hands back takes the prescribed values and is in
balance: the loads and the contact forces, those of this displacement, are carried by the body. -/
theorem C113_balance_partial (hv : ValidBoundaries N bs) (hd : DirichletData N 2 bs D g)
    (fsolve : RootFinder K) (hf : RootContract fsolve) (linalg : LinearSolver K) (m : DirectSetting K)
    (hs : Segments N m.surfaces) (hfree : FreeSurfaces N D m.surfaces) (jn : K → K → K → K)
    (hex : ∃ x, ∀ r < 2 * N, directEquation m.sqrt jn 2 m.nodes m.surfaces (applyDirichlet N 2 bs S).lhs
      (applyDirichlet N 2 bs S).rhs ⟨2 * N, x⟩ r = 0)
    (len : ℕ) (guess u : ℕ → K)
    (hu : directSolve fsolve linalg m (.equation (.function jn)) N 2 bs (applyDirichlet N 2 bs S) len guess =
      .ok u) :
    BalancedField (2 * N) S.lhs D g
      (fun r => S.rhs r - sharedForces m.sqrt (fun y => jn y 0 0) m.nodes m.surfaces N u r) u := by
  obtain ⟨rfl, -, rfl⟩ := directSolve_equation N bs hu
  set x := fsolve (2 * N) (fun x => directEquation m.sqrt jn 2 m.nodes m.surfaces (applyDirichlet N 2 bs S).lhs
    (applyDirichlet N 2 bs S).rhs ⟨2 * N, x⟩) guess with hxdef
  have hx := hf (2 * N) (fun x => directEquation m.sqrt jn 2 m.nodes m.surfaces (applyDirichlet N 2 bs S).lhs
    (applyDirichlet N 2 bs S).rhs ⟨2 * N, x⟩) guess hex
  obtain ⟨-, h2⟩ := C113_found N bs S D g hv hd m.sqrt jn m.nodes m.surfaces hs x hx guess
  have hsame : sharedForces m.sqrt (fun y => jn y 0 0) m.nodes m.surfaces N
      (solverSolve (fun _ => x) N 2 bs guess) =
      sharedForces m.sqrt (fun y => jn y 0 0) m.nodes m.surfaces N x := by
    refine sharedForces_same _ _ _ _ N _ _ fun s h node hn i hi => ?_
    rw [C16_solution_satisfies_dirichlet N 2 bs D g (fun _ => x) guess hv hd, if_neg (hfree s h node hn i hi)]
  rw [hsame]
  exact h2

end found

section reactions
variable {K : Type} [Field K] {N : ℕ} {elements : List (List ℕ)} {nodes : ℕ → ℕ → K}

/-- The forces along a rigid motion of the plane do the work of forces in the middle of the surfaces. -/
theorem shared_rigid_work [CharZero K] (sqrt : K → K) (p : K → K) (place : ℕ → ℕ → K) (surfaces : List (Surface K))
    (hs : Segments N surfaces) (u : ℕ → K) (c : ℕ → K) (w : K) :
    ∑ q ∈ Finset.range N, (sharedForces sqrt p place surfaces N u q * (c 0 - w * nodes q 1) +
      sharedForces sqrt p place surfaces N u (N + q) * (c 1 + w * nodes q 0)) =
    (surfaces.map fun s => surfaceForce sqrt p place (fun node i => u (i * N + node)) s *
      (s.normal 0 * (c 0 - w * meanOver s.edge nodes 1) + s.normal 1 * (c 1 + w * meanOver s.edge nodes 0))).sum := by
  have e1 : ∀ q ∈ Finset.range N, sharedForces sqrt p place surfaces N u q * (c 0 - w * nodes q 1) +
      sharedForces sqrt p place surfaces N u (N + q) * (c 1 + w * nodes q 0) =
      (surfaces.map fun s => (s.edge.count q : K) * (surfaceForce sqrt p place (fun node i => u (i * N + node)) s /
        (s.edge.length : K) * (s.normal 0 * (c 0 - w * nodes q 1) + s.normal 1 * (c 1 + w * nodes q 0)))).sum := by
    intro q hq
    have hq := Finset.mem_range.1 hq
    have hN : 0 < N := by omega
    unfold sharedForces sharedForce
    rw [Nat.div_eq_of_lt hq, Nat.mod_eq_of_lt hq, Nat.add_div_left _ hN, Nat.div_eq_of_lt hq, Nat.add_mod_left,
      Nat.mod_eq_of_lt hq, mul_comm, ← sum_map_mul, mul_comm _ (c 1 + _), ← sum_map_mul, ← sum_map_add']
    exact congrArg _ (List.map_congr_left fun s _ => by ring)
  rw [Finset.sum_congr rfl e1, sum_list_comm]
  refine congrArg _ (List.map_congr_left fun s hs' => ?_)
  obtain ⟨a, b, hab, ha, hb⟩ := hs s hs'
  rw [sum_count N s.edge (by rw [hab]; simp [ha, hb])]
  rw [hab]
  unfold meanOver
  simp only [List.map_cons, List.map_nil, List.sum_cons, List.sum_nil, List.length_cons, List.length_nil]
  push_cast
  ring

/-- There are reactions at the supports only, and they balance the loads. -/
theorem plane_reactions [LinearOrder K] [IsStrictOrderedRing K] (hv : ValidElements 2 N elements)
    (hnd : Nondegenerate2 elements nodes) (mu lam : K) (D : ℕ → Prop) (g L u : ℕ → K)
    (h : BalancedField (2 * N) (Plane.constitutive N (basicMatrices2 elements nodes).W mu lam) D g L u)
    (c : ℕ → K) (w : K) :
    let R := reaction (2 * N) (Plane.constitutive N (basicMatrices2 elements nodes).W mu lam) L u
    ∑ q ∈ Finset.range N, (R q * (c 0 - w * nodes q 1) + R (N + q) * (c 1 + w * nodes q 0)) =
      -∑ q ∈ Finset.range N, (L q * (c 0 - w * nodes q 1) + L (N + q) * (c 1 + w * nodes q 0)) := by
  intro R
  let z : ℕ → K := fun r => if r < N then c 0 - w * nodes r 1 else c 1 + w * nodes (r - N) 0
  have hz : RigidMotion 2 N nodes z := by
    refine ⟨c, fun a k => if a = 0 ∧ k = 1 then -w else if a = 1 ∧ k = 0 then w else 0, ?_, ?_⟩
    · intro a ha k hk
      interval_cases a <;> interval_cases k <;> simp
    · intro a ha p hp
      interval_cases a
      · simp [z, hp, Finset.sum_range_succ, sub_eq_add_neg]
      · simp [z, Finset.sum_range_succ]
  have h1 := (C99_reactions z ((C72_rigid2 hv hnd mu lam 0 z).1 hz) h).2
  unfold work at h1
  rw [sum_plane, sum_plane] at h1
  have h2 : ∀ y : ℕ → K, ∑ p ∈ Finset.range N, (y p * z p + y (N + p) * z (N + p)) =
      ∑ p ∈ Finset.range N, (y p * (c 0 - w * nodes p 1) + y (N + p) * (c 1 + w * nodes p 0)) := by
    intro y
    refine Finset.sum_congr rfl fun p hp => ?_
    simp [z, Finset.mem_range.1 hp]
  rw [h2, h2] at h1
  exact h1

/-- C113. The reactions of the supports to what the direct solver finds. They act at the supports only. Their
resultant is that of the loads with the opposite sign, plus that of the pressures on the surfaces. Their moment
is that of the loads with the opposite sign, plus that of the forces of the surfaces, each in the middle of its
surface. -/
theorem C113_reactions [LinearOrder K] [IsStrictOrderedRing K] (hv : ValidElements 2 N elements)
    (hnd : Nondegenerate2 elements nodes) (mu lam : K) (sqrt : K → K) (p : K → K) (surfaces : List (Surface K))
    (hs : Segments N surfaces) (D : ℕ → Prop) (g f u : ℕ → K)
    (h : BalancedField (2 * N) (Plane.constitutive N (basicMatrices2 elements nodes).W mu lam) D g
      (fun r => f r - sharedForces sqrt p nodes surfaces N u r) u) :
    let R := reaction (2 * N) (Plane.constitutive N (basicMatrices2 elements nodes).W mu lam)
      (fun r => f r - sharedForces sqrt p nodes surfaces N u r) u
    let force := surfaceForce sqrt p nodes fun node i => u (i * N + node)
    (∀ r < 2 * N, ¬ D r → R r = 0) ∧
    ∑ q ∈ Finset.range N, R q = -(∑ q ∈ Finset.range N, f q) + (surfaces.map fun s => force s * s.normal 0).sum ∧
    ∑ q ∈ Finset.range N, R (N + q) =
      -(∑ q ∈ Finset.range N, f (N + q)) + (surfaces.map fun s => force s * s.normal 1).sum ∧
    ∑ q ∈ Finset.range N, (nodes q 0 * R (N + q) - nodes q 1 * R q) =
      -(∑ q ∈ Finset.range N, (nodes q 0 * f (N + q) - nodes q 1 * f q)) +
      (surfaces.map fun s => force s * (meanOver s.edge nodes 0 * s.normal 1 -
        meanOver s.edge nodes 1 * s.normal 0)).sum := by
  intro R force
  have key : ∀ (c : ℕ → K) (w : K), ∑ q ∈ Finset.range N,
      (R q * (c 0 - w * nodes q 1) + R (N + q) * (c 1 + w * nodes q 0)) =
      -(∑ q ∈ Finset.range N, (f q * (c 0 - w * nodes q 1) + f (N + q) * (c 1 + w * nodes q 0))) +
      (surfaces.map fun s => force s * (s.normal 0 * (c 0 - w * meanOver s.edge nodes 1) +
        s.normal 1 * (c 1 + w * meanOver s.edge nodes 0))).sum := by
    intro c w
    have h1 := plane_reactions hv hnd mu lam D g _ u h c w
    have h2 := shared_rigid_work (nodes := nodes) sqrt p nodes surfaces hs u c w
    refine h1.trans ?_
    rw [← h2, ← Finset.sum_neg_distrib, ← Finset.sum_neg_distrib, ← Finset.sum_add_distrib]
    exact Finset.sum_congr rfl fun q _ => by ring
  refine ⟨fun r hr hD => h.reaction_zero hr hD, ?_, ?_, ?_⟩
  · simpa using key (fun a => if a = 0 then 1 else 0) 0
  · simpa using key (fun a => if a = 1 then 1 else 0) 0
  · have := key (fun _ => 0) 1
    simp only [zero_sub, zero_add, one_mul] at this
    rw [Finset.sum_congr rfl fun p _ => show nodes p 0 * R (N + p) - nodes p 1 * R p =
      R p * -nodes p 1 + R (N + p) * nodes p 0 by ring, this]
    congr 1
    · exact congrArg _ (Finset.sum_congr rfl fun p _ => by ring)
    · exact congrArg _ (List.map_congr_left fun s _ => by ring)

/-- C113, violated: the moment. On a segment the moment of the force in the middle differs from the moment of
the pressures at the places where they act, by half the weight of a sample times the difference of the pressures
at the two ends times the moment arm between the ends. -/
theorem C113_moment_wrong [CharZero K] (sqrt : K → K) (p : K → K) (nodes u : ℕ → ℕ → K) (s : Surface K) (a b : ℕ)
    (hab : s.edge = [a, b]) :
    let weight := surfaceLength sqrt nodes s.edge / 3
    let arm := fun x : ℕ → K => x 0 * s.normal 1 - x 1 * s.normal 0
    weight * (p (penetration s (meanOver s.edge u)) * arm (meanOver s.edge nodes) +
      p (penetration s (u a)) * arm (nodes a) + p (penetration s (u b)) * arm (nodes b)) -
    surfaceForce sqrt p nodes u s * arm (meanOver s.edge nodes) =
      weight / 2 * (p (penetration s (u a)) - p (penetration s (u b))) * (arm (nodes a) - arm (nodes b)) := by
  intro weight arm
  simp only [weight, arm, surfaceForce, hab, meanOver, List.map_cons, List.map_nil, List.sum_cons, List.sum_nil,
    List.length_cons, List.length_nil]
  push_cast
  field_simp
  ring

end reactions

section least
variable (N : ℕ) (D : ℕ → Prop) (g : ℕ → ℝ)

/-- A convex function without slope in the direction of a point is not greater than there. -/
theorem convex_least {f : (ℕ → ℝ) → ℝ} (hf : ConvexVec f) (x y : ℕ → ℝ)
    (h : HasDerivAt (fun t : ℝ => f fun k => x k + t * (y k - x k)) 0 0) : f x ≤ f y := by
  have hc : ConvexOn ℝ Set.univ fun t : ℝ => f fun k => x k + t * (y k - x k) := by
    refine ⟨convex_univ, fun s _ t _ a b ha hb hab => ?_⟩
    have := hf (fun k => x k + s * (y k - x k)) (fun k => x k + t * (y k - x k)) a b ha hb hab
    simp only [smul_eq_mul]
    refine le_trans (le_of_eq ?_) this
    congr 1
    funext k
    linear_combination (x k) * (1 - hab)
  have h1 := hc.le_slope_of_hasDerivAt (Set.mem_univ 0) (Set.mem_univ 1) zero_lt_one h
  simp [slope] at h1
  exact h1

/-- C113. For convex laws equilibrium and least energy are the same: a field with the prescribed values has the
least energy, contact included, if and only if it is in balance with its contact forces. -/
theorem C113_equilibrium (j p : ℝ → ℝ → ℝ → ℝ) (d : ContactData ℝ) (hdim : 1 < d.variableDimension)
    (he : ∀ s ∈ d.surfaces, s.edge ≠ []) (hn : ∀ s ∈ d.surfaces, ∀ node ∈ s.edge, node < N)
    (S : System ℝ) (hA : StoresEnergy (d.variableDimension * N) S.lhs) (u : ℕ → ℝ)
    (hj : ∀ a static, HasDerivAt (fun y => j y static d.dt) (p a static d.dt) a)
    (hconv : ∀ static, Convex1 fun x => j x static d.dt) :
    HeldMinimiser (d.variableDimension * N) D g (fun y => costFunctional Real.sqrt (frictionless j) d
      (d.variableDimension * N) S.lhs S.rhs ⟨d.variableDimension * N, y⟩) u ↔
    BalancedField (d.variableDimension * N) S.lhs D g
      (fun r => S.rhs r - contactForces Real.sqrt p d N u r) u := by
  refine ⟨C101_balance N D g j p d hdim he hn S hA.symm u fun s _ a _ => hj a _, fun h => ⟨h.values, fun v hv => ?_⟩⟩
  refine convex_least (C48_convex Real.sqrt isSqrt_real (frictionless j) d
    (fun s _ sn st => C48_density_convex j d.variableDimension s.normal sn st d.dt (hconv sn)) _ _ S hA.nonneg) u v ?_
  have h1 := C49_derivative j p d (d.variableDimension * N) S hA.symm u (fun k => v k - u k)
    fun s _ a _ => hj a _
  refine h1.congr_deriv ?_
  rw [work_contactForces Real.sqrt p d N hdim he hn]
  unfold dot
  rw [← Finset.sum_add_distrib]
  refine Finset.sum_eq_zero fun r hr => ?_
  have hr := Finset.mem_range.1 hr
  beta_reduce
  by_cases hD : D r
  · rw [hv r hr hD, h.values r hr hD]; ring
  · have := h.balance r hr hD
    unfold act at this
    rw [this]; ring

/-- The forces of C101 for a law that depends on the penetration only, surface by surface. -/
theorem contactForces_eq (p : ℝ → ℝ → ℝ → ℝ) (q : ℝ → ℝ) (nodes : ℕ → ℕ → ℝ) (surfaces : List (Surface ℝ))
    (dt : ℝ) (w v : ℕ → ℝ) (hp : ∀ x static, p x static dt = q x) (u : ℕ → ℝ) (r : ℕ) :
    contactForces Real.sqrt p (contactOf N nodes surfaces dt w v) N u r =
      (surfaces.map fun s => (s.edge.count (r % N) : ℝ) * (surfaceLength Real.sqrt nodes s.edge /
        ((s.edge.length + 1 : ℕ) : ℝ) * s.normal (r / N) *
        (q (penetration s (meanOver s.edge fun node i => u (i * N + node))) / (s.edge.length : ℝ) +
          q (penetration s fun i => u (i * N + r % N))))).sum := by
  unfold contactForces contactForce
  refine congrArg _ (List.map_congr_left fun s _ => ?_)
  simp [sampleWeight, pressure, contactOf, hp, normalComponent, penetration, Finset.sum_range_succ]

/-- C113. What the direct solver finds has the least energy if and only if the forces, shared equally by the
nodes of each surface, happen to be the contact forces. -/
theorem C113_least (j p : ℝ → ℝ → ℝ → ℝ) (q : ℝ → ℝ) (nodes : ℕ → ℕ → ℝ) (surfaces : List (Surface ℝ))
    (hs : Segments N surfaces) (dt : ℝ) (w v : ℕ → ℝ) (hp : ∀ x static, p x static dt = q x)
    (hj : ∀ a static, HasDerivAt (fun y => j y static dt) (p a static dt) a)
    (hconv : ∀ static, Convex1 fun x => j x static dt) (S : System ℝ) (hA : StoresEnergy (2 * N) S.lhs) (u : ℕ → ℝ)
    (hu : BalancedField (2 * N) S.lhs D g (fun r => S.rhs r - sharedForces Real.sqrt q nodes surfaces N u r) u) :
    HeldMinimiser (2 * N) D g (fun y => costFunctional Real.sqrt (frictionless j) (contactOf N nodes surfaces dt w v)
      (2 * N) S.lhs S.rhs ⟨2 * N, y⟩) u ↔
    ∀ r < 2 * N, ¬ D r → sharedForces Real.sqrt q nodes surfaces N u r =
      contactForces Real.sqrt p (contactOf N nodes surfaces dt w v) N u r := by
  have h := C113_equilibrium N D g j p (contactOf N nodes surfaces dt w v) (by simp [contactOf])
    (fun s h => by obtain ⟨a, b, h, -⟩ := hs s h; simp [h])
    (fun s h => by obtain ⟨a, b, h, ha, hb⟩ := hs s h; simp [h, ha, hb]) S hA u hj hconv
  refine h.trans ⟨fun h r hr hD => ?_, fun h => ⟨hu.values, fun r hr hD => ?_⟩⟩
  · have h1 := h.balance r hr hD
    have h2 := hu.balance r hr hD
    have h1 : act (2 * N) S.lhs u r = S.rhs r - contactForces Real.sqrt p (contactOf N nodes surfaces dt w v) N u r := h1
    linarith
  · rw [← h r hr hD]
    exact hu.balance r hr hD

/-- Equal pressures at the two ends of each surface. -/
theorem sharedForces_uniform (p : ℝ → ℝ → ℝ → ℝ) (q : ℝ → ℝ) (nodes : ℕ → ℕ → ℝ) (surfaces : List (Surface ℝ))
    (hs : Segments N surfaces) (dt : ℝ) (w v : ℕ → ℝ) (hp : ∀ x static, p x static dt = q x) (u : ℕ → ℝ)
    (heq : ∀ s ∈ surfaces, ∀ a ∈ s.edge, ∀ b ∈ s.edge,
      q (penetration s fun i => u (i * N + a)) = q (penetration s fun i => u (i * N + b))) (r : ℕ) :
    sharedForces Real.sqrt q nodes surfaces N u r =
      contactForces Real.sqrt p (contactOf N nodes surfaces dt w v) N u r := by
  rw [contactForces_eq N p q nodes surfaces dt w v hp]
  unfold sharedForces sharedForce
  refine congrArg _ (List.map_congr_left fun s hs' => ?_)
  obtain ⟨a, b, hab, -⟩ := hs s hs'
  have h1 := heq s hs' a (by simp [hab]) b (by simp [hab])
  by_cases hm : r % N ∈ s.edge
  · have h2 := heq s hs' a (by simp [hab]) (r % N) hm
    congr 1
    unfold surfaceForce
    rw [← h2, hab]
    simp only [List.map_cons, List.map_nil, List.sum_cons, List.sum_nil, List.length_cons, List.length_nil, ← h1]
    push_cast
    ring
  · rw [List.count_eq_zero_of_not_mem hm]
    simp

/-- C113, violated: the direct solver does not find the displacement of least energy. Let `a` be the end of the
contact boundary, a node of one surface only, and let the pressures at the two ends of this surface differ. Then
a displacement in balance with the forces that the direct solver uses does not have the least energy. -/
theorem C113_end_wrong (j p : ℝ → ℝ → ℝ → ℝ) (q : ℝ → ℝ) (nodes : ℕ → ℕ → ℝ) (before after : List (Surface ℝ))
    (s : Surface ℝ) (a b i : ℕ) (hab : s.edge = [a, b] ∨ s.edge = [b, a]) (hne : a ≠ b) (hi : i < 2)
    (hother : ∀ σ ∈ before ++ after, a ∉ σ.edge)
    (hs : Segments N (before ++ s :: after)) (dt : ℝ) (w v : ℕ → ℝ) (hp : ∀ x static, p x static dt = q x)
    (hj : ∀ a static, HasDerivAt (fun y => j y static dt) (p a static dt) a)
    (hconv : ∀ static, Convex1 fun x => j x static dt) (S : System ℝ) (hA : StoresEnergy (2 * N) S.lhs) (u : ℕ → ℝ)
    (hu : BalancedField (2 * N) S.lhs D g
      (fun r => S.rhs r - sharedForces Real.sqrt q nodes (before ++ s :: after) N u r) u)
    (hD : ¬ D (i * N + a)) (hni : s.normal i ≠ 0) (hlen : surfaceLength Real.sqrt nodes s.edge ≠ 0)
    (hdiff : q (penetration s fun i => u (i * N + a)) ≠ q (penetration s fun i => u (i * N + b))) :
    ¬ HeldMinimiser (2 * N) D g (fun y => costFunctional Real.sqrt (frictionless j)
      (contactOf N nodes (before ++ s :: after) dt w v) (2 * N) S.lhs S.rhs ⟨2 * N, y⟩) u := by
  rw [C113_least N D g j p q nodes _ hs dt w v hp hj hconv S hA u hu]
  intro h
  have haN : a < N := by
    obtain ⟨a', b', h1, h2, h3⟩ := hs s (by simp)
    rcases hab with h | h <;> rw [h] at h1 <;> simp at h1 <;> omega
  have hr : i * N + a < 2 * N := by interval_cases i <;> omega
  have h1 := h _ hr hD
  have hN : 0 < N := by omega
  have ediv : (i * N + a) / N = i := by
    rw [Nat.mul_comm, Nat.mul_add_div hN, Nat.div_eq_of_lt haN, add_zero]
  have emod : (i * N + a) % N = a := by rw [Nat.mul_comm, Nat.mul_add_mod, Nat.mod_eq_of_lt haN]
  rw [contactForces_eq N p q nodes _ dt w v hp] at h1
  unfold sharedForces sharedForce at h1
  rw [ediv, emod] at h1
  have hz : ∀ (l : List (Surface ℝ)) (F : Surface ℝ → ℝ), (∀ σ ∈ l, a ∉ σ.edge) →
      (l.map fun σ => (σ.edge.count a : ℝ) * F σ).sum = 0 := by
    intro l F hl
    rw [List.map_congr_left (g := fun _ => (0 : ℝ)) fun σ hσ => by
      rw [List.count_eq_zero_of_not_mem (hl σ hσ)]; simp]
    simp
  simp only [List.map_append, List.map_cons, List.sum_append, List.sum_cons] at h1
  rw [hz before _ fun σ hσ => hother σ (by simp [hσ]), hz after _ fun σ hσ => hother σ (by simp [hσ]),
    hz before _ fun σ hσ => hother σ (by simp [hσ]), hz after _ fun σ hσ => hother σ (by simp [hσ])] at h1
  have hcount : s.edge.count a = 1 := by
    rcases hab with h | h <;> simp [h, hne, Ne.symm hne]
  have hlen2 : s.edge.length = 2 := by rcases hab with h | h <;> simp [h]
  have hsum : (s.edge.map fun node => q (penetration s fun i => u (i * N + node))).sum =
      q (penetration s fun i => u (i * N + a)) + q (penetration s fun i => u (i * N + b)) := by
    rcases hab with h | h <;> simp [h, add_comm]
  unfold surfaceForce at h1
  rw [hcount, hlen2, hsum] at h1
  have h2 : surfaceLength Real.sqrt nodes s.edge * s.normal i *
      (q (penetration s fun i => u (i * N + a)) - q (penetration s fun i => u (i * N + b))) = 0 := by
    push_cast at h1
    linear_combination (-6 : ℝ) * h1
  exact mul_ne_zero (mul_ne_zero hlen hni) (sub_ne_zero.2 hdiff) h2

variable (bs : List (CondBoundary ℝ)) (S : System ℝ) [DecidablePred D]

/-- C113 (partial: no contact surface has a held node, the equation has a solution, and the pressures at the
ends of each surface are equal, for example because there is no contact). The displacement found by the direct
solver has the least energy, contact included, among all displacements with the prescribed values. -/
theorem C113_uniform_partial (hv : ValidBoundaries N bs) (hd : DirichletData N 2 bs D g)
    (fsolve : RootFinder ℝ) (hf : RootContract fsolve) (linalg : LinearSolver ℝ) (m : DirectSetting ℝ)
    (hsqrt : m.sqrt = Real.sqrt) (hs : Segments N m.surfaces) (hfree : FreeSurfaces N D m.surfaces)
    (j p : ℝ → ℝ → ℝ → ℝ) (dt : ℝ) (w v : ℕ → ℝ) (hp : ∀ x static, p x static dt = p x 0 0)
    (hj : ∀ a static, HasDerivAt (fun y => j y static dt) (p a static dt) a)
    (hconv : ∀ static, Convex1 fun x => j x static dt) (hA : StoresEnergy (2 * N) S.lhs)
    (hex : ∃ x, ∀ r < 2 * N, directEquation m.sqrt p 2 m.nodes m.surfaces (applyDirichlet N 2 bs S).lhs
      (applyDirichlet N 2 bs S).rhs ⟨2 * N, x⟩ r = 0)
    (len : ℕ) (guess u : ℕ → ℝ)
    (hu : directSolve fsolve linalg m (.equation (.function p)) N 2 bs (applyDirichlet N 2 bs S) len guess = .ok u)
    (heq : ∀ s ∈ m.surfaces, ∀ a ∈ s.edge, ∀ b ∈ s.edge,
      p (penetration s fun i => u (i * N + a)) 0 0 = p (penetration s fun i => u (i * N + b)) 0 0) :
    HeldMinimiser (2 * N) D g (fun y => costFunctional Real.sqrt (frictionless j)
      (contactOf N m.nodes m.surfaces dt w v) (2 * N) S.lhs S.rhs ⟨2 * N, y⟩) u := by
  have h := C113_balance_partial N bs S D g hv hd fsolve hf linalg m hs hfree p hex len guess u hu
  rw [hsqrt] at h
  rw [C113_least N D g j p (fun y => p y 0 0) m.nodes m.surfaces hs dt w v hp hj hconv S hA u h]
  exact fun r _ _ => sharedForces_uniform N p (fun y => p y 0 0) m.nodes m.surfaces hs dt w v hp u heq r

/-- C113 (partial, with the conditions of `C113_uniform_partial`). The direct method and the optimising methods
return the same displacement: what has the least energy, see C101, C111 and C112, is what the direct solver
found. -/
theorem C113_same_partial (hv : ValidBoundaries N bs) (hd : DirichletData N 2 bs D g)
    (fsolve : RootFinder ℝ) (hf : RootContract fsolve) (linalg : LinearSolver ℝ) (m : DirectSetting ℝ)
    (hsqrt : m.sqrt = Real.sqrt) (hs : Segments N m.surfaces) (hfree : FreeSurfaces N D m.surfaces)
    (j p : ℝ → ℝ → ℝ → ℝ) (dt : ℝ) (w v : ℕ → ℝ) (hp : ∀ x static, p x static dt = p x 0 0)
    (hj : ∀ a static, HasDerivAt (fun y => j y static dt) (p a static dt) a)
    (hconv : ∀ static, Convex1 fun x => j x static dt) (hA : StoresEnergy (2 * N) S.lhs)
    (hpos : ∀ x : ℕ → ℝ, Still (2 * N) D x → (∃ r < 2 * N, x r ≠ 0) → 0 < quad (2 * N) S.lhs x)
    (hex : ∃ x, ∀ r < 2 * N, directEquation m.sqrt p 2 m.nodes m.surfaces (applyDirichlet N 2 bs S).lhs
      (applyDirichlet N 2 bs S).rhs ⟨2 * N, x⟩ r = 0)
    (len : ℕ) (guess u : ℕ → ℝ)
    (hu : directSolve fsolve linalg m (.equation (.function p)) N 2 bs (applyDirichlet N 2 bs S) len guess = .ok u)
    (heq : ∀ s ∈ m.surfaces, ∀ a ∈ s.edge, ∀ b ∈ s.edge,
      p (penetration s fun i => u (i * N + a)) 0 0 = p (penetration s fun i => u (i * N + b)) 0 0)
    (x : ℕ → ℝ) (hx : HeldMinimiser (2 * N) D g (fun y => costFunctional Real.sqrt (frictionless j)
      (contactOf N m.nodes m.surfaces dt w v) (2 * N) S.lhs S.rhs ⟨2 * N, y⟩) x) : ∀ r < 2 * N, u r = x r := by
  have h := C113_uniform_partial N D g bs S hv hd fsolve hf linalg m hsqrt hs hfree j p dt w v hp hj hconv hA hex
    len guess u hu heq
  have e : (fun y => costFunctional Real.sqrt (frictionless j)
      (contactOf N m.nodes m.surfaces dt w v) (2 * N) S.lhs S.rhs ⟨2 * N, y⟩) =
      fun y => energy (2 * N) ⟨S.lhs, S.rhs⟩ y + contactCostFunctional Real.sqrt (frictionless j)
        (contactOf N m.nodes m.surfaces dt w v) ⟨2 * N, y⟩ := by
    funext y
    exact C48_energy Real.sqrt _ _ _ S ⟨2 * N, y⟩
  rw [e] at h hx
  exact heldMinimiser_unique D g (2 * N) S.lhs S.rhs _ (C48_contact_convex Real.sqrt isSqrt_real _ _
    (fun s _ sn st => C48_density_convex j 2 s.normal sn st dt (hconv sn)) _) hpos h hx

end least

section methods
variable {K : Type} [Field K] [DecidableEq K]

/-- C113. Without a contact law the direct solver hands back the equilibrium of the body under its loads,
whatever the initial guess, if the supports hold the body; there is only one such field. -/
theorem C113_without_law (N dim : ℕ) (bs : List (CondBoundary K)) (S : System K) (D : ℕ → Prop) [DecidablePred D]
    (g : ℕ → K) (hv : ValidBoundaries N bs) (hd : DirichletData N dim bs D g)
    (hdef : DefiniteOn (dim * N) D S.lhs) (fsolve : RootFinder K) (linalg : LinearSolver K)
    (hl : LinearContract linalg) (m : DirectSetting K) (init : DirectInit K) (hinit : directInit none = .ok init)
    (len : ℕ) (guess : ℕ → K) :
    ∃ u, directSolve fsolve linalg m init N dim bs (applyDirichlet N dim bs S) len guess = .ok u ∧
      BalancedField (dim * N) S.lhs D g S.rhs u ∧
      ∀ v, BalancedField (dim * N) S.lhs D g S.rhs v → ∀ r < dim * N, v r = u r := by
  obtain rfl : DirectInit.linear = init := by simpa [directInit] using hinit
  have hus := C74_definite N dim bs S D g hv hd hdef
  obtain ⟨x, h1, h2⟩ := hl (dim * N) (applyDirichlet N dim bs S).lhs (applyDirichlet N dim bs S).rhs hus
  have hx : Solves (dim * N) (applyDirichlet N dim bs S) fun r => if r < dim * N then x r else 0 := by
    intro r hr
    have := h2 r hr
    unfold Row at this ⊢
    rw [← this]
    exact Finset.sum_congr rfl fun s hs => by beta_reduce; rw [if_pos (Finset.mem_range.1 hs)]
  have hb := (C12_elimination_equivalent N dim bs S D g hv hd _).1 hx
  have hu : ∀ r < dim * N, solverSolve (fun _ r => if r < dim * N then x r else 0) N dim bs guess r =
      if r < dim * N then x r else 0 := by
    intro r hr
    rw [C16_solution_satisfies_dirichlet N dim bs D g _ guess hv hd]
    by_cases hD : D r
    · rw [if_pos hD]; exact (hb.1 r hr hD).symm
    · rw [if_neg hD]
  refine ⟨solverSolve (fun _ r => if r < dim * N then x r else 0) N dim bs guess, ?_, ?_, ?_⟩
  · unfold directSolve directImpl
    simp only [h1]
  · refine ⟨fun r hr hD => (hu r hr).trans (hb.1 r hr hD), fun r hr hD => ?_⟩
    have := hb.2 r hr hD
    unfold Row at this
    rw [← this]
    exact Finset.sum_congr rfl fun s hs => by rw [hu s (Finset.mem_range.1 hs)]
  · intro v hvb r hr
    obtain ⟨z, -, hz⟩ := hus
    have hvs : Solves (dim * N) (applyDirichlet N dim bs S) v :=
      (C12_elimination_equivalent N dim bs S D g hv hd v).2 ⟨hvb.values, hvb.balance⟩
    rw [hz v hvs r hr, hu r hr, hz _ hx r hr]

/-- C113. Without contact surfaces the direct solver hands back the equilibrium of the body under its loads,
whatever the contact law, if the supports hold the body; in space too, and for temperatures. -/
theorem C113_without_contact (N dim : ℕ) (bs : List (CondBoundary K)) (S : System K) (D : ℕ → Prop) [DecidablePred D]
    (g : ℕ → K) (hv : ValidBoundaries N bs) (hd : DirichletData N dim bs D g)
    (hdef : DefiniteOn (dim * N) D S.lhs) (fsolve : RootFinder K) (hf : RootContract fsolve) (linalg : LinearSolver K)
    (m : DirectSetting K) (hs : m.surfaces = []) (jn : K → K → K → K) (guess : ℕ → K) :
    ∃ u, directSolve fsolve linalg m (.equation (.function jn)) N dim bs (applyDirichlet N dim bs S) (dim * N) guess =
        .ok u ∧
      BalancedField (dim * N) S.lhs D g S.rhs u ∧
      ∀ v, BalancedField (dim * N) S.lhs D g S.rhs v → ∀ r < dim * N, v r = u r := by
  obtain ⟨z, hz, huniq⟩ := C74_definite N dim bs S D g hv hd hdef
  have heq : ∀ (x : ℕ → K) r, directEquation m.sqrt jn 2 m.nodes m.surfaces (applyDirichlet N dim bs S).lhs
      (applyDirichlet N dim bs S).rhs ⟨dim * N, x⟩ r = 0 ↔ Row (dim * N) (applyDirichlet N dim bs S) x r := by
    intro x r
    rw [hs]
    simp [directEquation, contactPart, Row, Flat.get, sub_eq_zero]
  set x := fsolve (dim * N) (fun x => directEquation m.sqrt jn 2 m.nodes m.surfaces (applyDirichlet N dim bs S).lhs
    (applyDirichlet N dim bs S).rhs ⟨dim * N, x⟩) guess with hxdef
  have hx : Solves (dim * N) (applyDirichlet N dim bs S) x := fun r hr => (heq _ _).1
    (hf (dim * N) (fun x => directEquation m.sqrt jn 2 m.nodes m.surfaces (applyDirichlet N dim bs S).lhs
      (applyDirichlet N dim bs S).rhs ⟨dim * N, x⟩) guess ⟨z, fun r hr => (heq _ _).2 (hz r hr)⟩ r hr)
  have hb := (C12_elimination_equivalent N dim bs S D g hv hd _).1 hx
  have hu : ∀ r < dim * N, solverSolve (fun _ => x) N dim bs guess r = x r := by
    intro r hr
    rw [C16_solution_satisfies_dirichlet N dim bs D g _ guess hv hd]
    by_cases hD : D r
    · rw [if_pos hD]; exact (hb.1 r hr hD).symm
    · rw [if_neg hD]
  refine ⟨solverSolve (fun _ => x) N dim bs guess, ?_, ?_, ?_⟩
  · unfold directSolve directImpl
    simp only [hs, or_true, and_self, if_true, hxdef]
  · refine ⟨fun r hr hD => (hu r hr).trans (hb.1 r hr hD), fun r hr hD => ?_⟩
    have := hb.2 r hr hD
    unfold Row at this
    rw [← this]
    exact Finset.sum_congr rfl fun s hs => by rw [hu s (Finset.mem_range.1 hs)]
  · intro v hvb r hr
    have hvs : Solves (dim * N) (applyDirichlet N dim bs S) v :=
      (C12_elimination_equivalent N dim bs S D g hv hd v).2 ⟨hvb.values, hvb.balance⟩
    rw [huniq v hvs r hr, hu r hr, huniq _ hx r hr]

omit [DecidableEq K] in
/-- C113, violated: the direct solver does not accept a number in place of a function for the subderivative,
although the optimisation solvers accept numbers for all parts of a law. -/
theorem C113_number_wrong (l : ContactLaw K) (c : K) (hl : l.generalContact = none ∧
      l.subderivativeNormal = some (.number c))
    (init : DirectInit K) (hinit : directInit (some l) = .ok init) (fsolve : RootFinder K) (linalg : LinearSolver K)
    (m : DirectSetting K) (N dim : ℕ) (bs : List (CondBoundary K)) (S : System K) (len : ℕ)
    (guess : ℕ → K) : directSolve fsolve linalg m init N dim bs S len guess = .error .notFunction := by
  obtain rfl : init = .equation (.number c) := by
    unfold directInit readAttribute at hinit
    simp [hl.1, hl.2, bind, Except.bind, pure, Except.pure] at hinit
    exact hinit.symm
  rfl

omit [DecidableEq K] in
/-- C113, violated: with a general contact condition the direct solver never returns anything, for bodies with
at least two unknowns: its equation has one entry only. The same happens if the subderivative is `None`. -/
theorem C113_general_wrong (l : ContactLaw K) (hl : (∃ c, l.generalContact = some c) ∨
      (l.generalContact = none ∧ l.subderivativeNormal = some .missing))
    (init : DirectInit K) (hinit : directInit (some l) = .ok init) (fsolve : RootFinder K) (linalg : LinearSolver K)
    (m : DirectSetting K) (N dim : ℕ) (bs : List (CondBoundary K)) (S : System K) (len : ℕ) (hlen : 1 < len)
    (guess : ℕ → K) : directSolve fsolve linalg m init N dim bs S len guess = .error .shape := by
  have h0 : ¬ (len = 1 ∧ dim * N = 1) := by omega
  have hcases : (∃ c, init = .general c) ∨ init = .equation .missing := by
    unfold directInit readAttribute at hinit
    cases hsub : l.subderivativeNormal with
    | none => simp [hsub, bind, Except.bind] at hinit
    | some jn =>
      rcases hl with ⟨c, hc⟩ | ⟨hc, hm⟩
      · simp [hsub, hc, bind, Except.bind, pure, Except.pure] at hinit
        exact Or.inl ⟨_, hinit.symm⟩
      · simp [hsub, hc, bind, Except.bind, pure, Except.pure] at hinit
        rw [hsub] at hm
        exact Or.inr (by rw [← hinit, Option.some.inj hm])
  rcases hcases with ⟨c, rfl⟩ | rfl <;> simp only [directSolve, directImpl, solveScalar, if_neg h0]

omit [DecidableEq K] in
/-- C113, violated: in space the direct solver solves no contact problem. -/
theorem C113_space_wrong (jn : K → K → K → K) (fsolve : RootFinder K) (linalg : LinearSolver K)
    (m : DirectSetting K) (hm : m.dimension = 3) (hs : m.surfaces ≠ []) (N dim : ℕ) (bs : List (CondBoundary K))
    (S : System K) (len : ℕ) (guess : ℕ → K) :
    directSolve fsolve linalg m (.equation (.function jn)) N dim bs S len guess = .error .shape := by
  simp [directSolve, directImpl, hm, hs]

omit [DecidableEq K] in
/-- C113, violated: displacement and time step. A law may depend on the displacement of the surface and on the
time step; the direct solver does not see it. Two laws with the same values for zero displacement and zero time
step give the same result, and so do two laws that differ in their friction and bounds, and two settings with
different displacements and time steps. -/
theorem C113_arguments_wrong (l l' : ContactLaw K) (jn jn' : K → K → K → K)
    (hl : l.subderivativeNormal = some (.function jn) ∧ l.generalContact = none)
    (hl' : l'.subderivativeNormal = some (.function jn') ∧ l'.generalContact = none)
    (h : ∀ x, jn x 0 0 = jn' x 0 0) (fsolve : RootFinder K) (linalg : LinearSolver K) (m m' : DirectSetting K)
    (hm : m.sqrt = m'.sqrt ∧ m.dimension = m'.dimension ∧ m.nodes = m'.nodes ∧ m.surfaces = m'.surfaces)
    (N dim : ℕ) (bs : List (CondBoundary K)) (S : System K) (len : ℕ) (guess : ℕ → K) :
    ∃ init init', directInit (some l) = .ok init ∧ directInit (some l') = .ok init' ∧
      directSolve fsolve linalg m init N dim bs S len guess =
        directSolve fsolve linalg m' init' N dim bs S len guess := by
  refine ⟨.equation (.function jn), .equation (.function jn'), ?_, ?_, ?_⟩
  · simp [directInit, readAttribute, hl.1, hl.2, bind, Except.bind, pure, Except.pure]
  · simp [directInit, readAttribute, hl'.1, hl'.2, bind, Except.bind, pure, Except.pure]
  · obtain ⟨h1, h2, h3, h4⟩ := hm
    have e : ∀ x : ℕ → K, directEquation m.sqrt jn 2 m.nodes m.surfaces S.lhs S.rhs ⟨len, x⟩ =
        directEquation m'.sqrt jn' 2 m'.nodes m'.surfaces S.lhs S.rhs ⟨len, x⟩ := by
      intro x
      funext r
      unfold directEquation contactPart
      simp only [h, h1, h3, h4]
    simp only [directSolve, directImpl, e]
    rw [h2, h4]

end methods

section witness

/-- The segment between (0, 0) and (1, 0) on an obstacle below it. -/
noncomputable def benchSurfaces : List (Surface ℝ) := [⟨[0, 1], fun i => if i = 1 then -1 else 0⟩]

noncomputable def benchNodes (p k : ℕ) : ℝ := if p = 1 ∧ k = 0 then 1 else 0

noncomputable def bench : DirectSetting ℝ :=
  { sqrt := Real.sqrt, dimension := 2, nodes := benchNodes, surfaces := benchSurfaces, displacement := fun _ => 0
    volumeMultiplier := fun _ _ => 0, timeStep := 1 }

/-- A symmetric and positive definite system for two nodes in the plane. The horizontal unknowns are
independent, the vertical ones have the matrix with rows (5, 2) and (2, 1). -/
noncomputable def benchSystem (f f' : ℝ) : System ℝ :=
  ⟨fun r s => if r = s then (if r = 2 then 5 else 1) else if (r = 2 ∧ s = 3) ∨ (r = 3 ∧ s = 2) then 2 else 0,
    fun r => if r = 2 then f else if r = 3 then f' else 0⟩

theorem bench_positive (f f' : ℝ) : (∀ r s, (benchSystem f f').lhs r s = (benchSystem f f').lhs s r) ∧
    ∀ x : ℕ → ℝ, (∃ r < 4, x r ≠ 0) → 0 < quad 4 (benchSystem f f').lhs x := by
  constructor
  · intro r s
    simp only [benchSystem]
    by_cases h : r = s
    · subst h; rfl
    · have h' : ¬ s = r := fun e => h e.symm
      simp only [if_neg h, if_neg h']
      congr 1
      exact propext ⟨by rintro (⟨a, b⟩ | ⟨a, b⟩) <;> omega, by rintro (⟨a, b⟩ | ⟨a, b⟩) <;> omega⟩
  · intro x hx
    have e : quad 4 (benchSystem f f').lhs x = x 0 ^ 2 + x 1 ^ 2 + (x 3 + 2 * x 2) ^ 2 + x 2 ^ 2 := by
      simp [quad, benchSystem, Finset.sum_range_succ]
      ring
    rw [e]
    by_contra hle
    push Not at hle
    have h0 : x 0 = 0 := by nlinarith [sq_nonneg (x 0), sq_nonneg (x 1), sq_nonneg (x 3 + 2 * x 2), sq_nonneg (x 2)]
    have h1 : x 1 = 0 := by nlinarith [sq_nonneg (x 0), sq_nonneg (x 1), sq_nonneg (x 3 + 2 * x 2), sq_nonneg (x 2)]
    have h2 : x 2 = 0 := by nlinarith [sq_nonneg (x 0), sq_nonneg (x 1), sq_nonneg (x 3 + 2 * x 2), sq_nonneg (x 2)]
    have h3 : x 3 + 2 * x 2 = 0 := by
      nlinarith [sq_nonneg (x 0), sq_nonneg (x 1), sq_nonneg (x 3 + 2 * x 2), sq_nonneg (x 2)]
    obtain ⟨r, hr, hne⟩ := hx
    interval_cases r
    · exact hne h0
    · exact hne h1
    · exact hne h2
    · exact hne (by linarith)

theorem bench_segments : Segments 2 benchSurfaces := by
  intro s hs
  simp only [benchSurfaces, List.mem_singleton] at hs
  subst hs
  exact ⟨0, 1, rfl, by norm_num, by norm_num⟩

theorem bench_length : surfaceLength Real.sqrt benchNodes [0, 1] = 1 := by
  simp [surfaceLength, benchNodes]

/-- The equation for the bench and the law of slope 12. -/
theorem bench_equation (f f' : ℝ) (x : ℕ → ℝ) :
    (∀ r < 2 * 2, directEquation Real.sqrt (slopeSubderivative 12) 2 benchNodes benchSurfaces
      (benchSystem f f').lhs (benchSystem f f').rhs ⟨2 * 2, x⟩ r = 0) ↔
    let P := max (-x 2) 0 + max (-x 3) 0 + max (-(x 2 + x 3) / 2) 0
    x 0 = 0 ∧ x 1 = 0 ∧ 5 * x 2 + 2 * x 3 - 2 * P = f ∧ 2 * x 2 + x 3 - 2 * P = f' := by
  have hsl : ∀ y : ℝ, slopeSubderivative 12 y 0 0 = 12 * max y 0 := by
    intro y
    unfold slopeSubderivative
    split_ifs with h
    · rw [max_eq_right h, mul_zero]
    · rw [max_eq_left (by linarith)]
  have hl := bench_length
  have key : ∀ r < 4, directEquation Real.sqrt (slopeSubderivative 12) 2 benchNodes benchSurfaces
      (benchSystem f f').lhs (benchSystem f f').rhs ⟨4, x⟩ r =
      ∑ s ∈ Finset.range 4, (benchSystem f f').lhs r s * x s +
        sharedForces Real.sqrt (fun y => slopeSubderivative 12 y 0 0) benchNodes benchSurfaces 2 x r -
        (benchSystem f f').rhs r := by
    intro r hr
    unfold directEquation
    rw [show (4 : ℕ) = 2 * 2 from rfl, contactPart_eq Real.sqrt _ benchNodes benchSurfaces 2 bench_segments x r hr]
  have hF : ∀ i < 2, ∀ node < 2, sharedForce Real.sqrt (fun y => slopeSubderivative 12 y 0 0) benchNodes benchSurfaces
      (fun node i => x (i * 2 + node)) i node =
      if i = 1 then -(2 * (max (-x 2) 0 + max (-x 3) 0 + max (-(x 2 + x 3) / 2) 0)) else 0 := by
    intro i hi node hnode
    have hm : (-(x 2 + x 3) / 2 : ℝ) = (x 2 + x 3) / 2 * -1 := by ring
    simp only [sharedForce, benchSurfaces, surfaceForce, hsl, penetration, meanOver, hl, List.map_cons, List.map_nil,
      List.sum_cons, List.sum_nil, List.length_cons, List.length_nil, hm]
    interval_cases i <;> interval_cases node <;> norm_num <;> ring
  simp only []
  generalize max (-x 2) 0 + max (-x 3) 0 + max (-(x 2 + x 3) / 2) 0 = P at hF ⊢
  constructor
  · intro h
    have h0 := key 0 (by norm_num)
    have h1 := key 1 (by norm_num)
    have h2 := key 2 (by norm_num)
    have h3 := key 3 (by norm_num)
    rw [h 0 (by norm_num)] at h0
    rw [h 1 (by norm_num)] at h1
    rw [h 2 (by norm_num)] at h2
    rw [h 3 (by norm_num)] at h3
    unfold sharedForces at h0 h1 h2 h3
    rw [hF _ (by norm_num) _ (by norm_num)] at h0 h1 h2 h3
    simp [benchSystem, Finset.sum_range_succ] at h0 h1 h2 h3
    refine ⟨h0.symm, h1.symm, ?_, ?_⟩ <;> linarith
  · rintro ⟨h0, h1, h2, h3⟩ r hr
    rw [show (2 * 2 : ℕ) = 4 from rfl] at hr ⊢
    rw [key r hr]
    unfold sharedForces
    interval_cases r <;> rw [hF _ (by norm_num) _ (by norm_num)] <;>
      simp [benchSystem, Finset.sum_range_succ, h0, h1] <;> linarith

/-- C113, violated: there may be no equilibrium for the direct solver, although the system is symmetric and
positive definite, see `bench_positive`, and the law is a convex slope law. -/
theorem C113_none_wrong : ¬ ∃ x : ℕ → ℝ, ∀ r < 2 * 2, directEquation Real.sqrt (slopeSubderivative 12) 2 benchNodes
    benchSurfaces (benchSystem (-4) (-2)).lhs (benchSystem (-4) (-2)).rhs ⟨2 * 2, x⟩ r = 0 := by
  rintro ⟨x, hx⟩
  obtain ⟨-, -, h2, h3⟩ := (bench_equation (-4) (-2) x).1 hx
  have a1 := le_max_left (-x 2) 0
  have a2 := le_max_right (-x 2) 0
  have b1 := le_max_left (-x 3) 0
  have b2 := le_max_right (-x 3) 0
  have c2 := le_max_right (-(x 2 + x 3) / 2) 0
  linarith

/-- C113, violated: there may be several equilibria for the direct solver, for a symmetric and positive definite
system and a convex slope law. Which one is returned depends on the initial displacement and on the root finder. -/
theorem C113_several_wrong : ∃ fsolve : RootFinder ℝ, RootContract fsolve ∧ ∃ guess guess' u u' : ℕ → ℝ,
    directSolve fsolve (fun _ _ _ => none) bench (.equation (.function (slopeSubderivative 12))) 2 2 []
      (benchSystem (-6) (-4)) 4 guess = .ok u ∧
    directSolve fsolve (fun _ _ _ => none) bench (.equation (.function (slopeSubderivative 12))) 2 2 []
      (benchSystem (-6) (-4)) 4 guess' = .ok u' ∧
    BalancedField (2 * 2) (benchSystem (-6) (-4)).lhs (fun _ => False) (fun _ => 0)
      (fun r => (benchSystem (-6) (-4)).rhs r -
        sharedForces Real.sqrt (slopeSubderivative 12 · 0 0) benchNodes benchSurfaces 2 u r) u ∧
    BalancedField (2 * 2) (benchSystem (-6) (-4)).lhs (fun _ => False) (fun _ => 0)
      (fun r => (benchSystem (-6) (-4)).rhs r -
        sharedForces Real.sqrt (slopeSubderivative 12 · 0 0) benchNodes benchSurfaces 2 u' r) u' ∧
    u 2 ≠ u' 2 := by
  classical
  let x1 : ℕ → ℝ := fun r => if r = 2 then -2 else if r = 3 then 4 else 0
  let x2 : ℕ → ℝ := fun r => if r = 2 then -4 / 7 else if r = 3 then -2 / 7 else 0
  let E := fun x : ℕ → ℝ => directEquation Real.sqrt (slopeSubderivative 12) 2 benchNodes
    benchSurfaces (benchSystem (-6) (-4)).lhs (benchSystem (-6) (-4)).rhs ⟨2 * 2, x⟩
  have r1 : ∀ r < 2 * 2, E x1 r = 0 := by
    refine (bench_equation (-6) (-4) x1).2 ?_
    norm_num [x1]
  have r2 : ∀ r < 2 * 2, E x2 r = 0 := by
    refine (bench_equation (-6) (-4) x2).2 ?_
    norm_num [x2]
  -- a root finder that returns its guess if it is a root
  let fsolve : RootFinder ℝ := fun n f guess =>
    if ∀ r < n, f guess r = 0 then guess else if h : ∃ x, ∀ r < n, f x r = 0 then h.choose else guess
  have hf : RootContract fsolve := by
    intro n f guess hex
    by_cases h : ∀ r < n, f guess r = 0
    · simp only [fsolve, if_pos h]; exact h
    · simp only [fsolve, if_neg h, dif_pos hex]; exact hex.choose_spec
  have hval : ValidBoundaries 2 ([] : List (CondBoundary ℝ)) := by intro b hb; simp at hb
  have hdir : DirichletData 2 2 ([] : List (CondBoundary ℝ)) (fun _ => False) (fun _ => 0) :=
    ⟨fun x => ⟨fun h => h.elim, by rintro ⟨v, b, hb, -⟩; simp at hb⟩, by rintro x v ⟨b, hb, -⟩; simp at hb⟩
  have hsol : ∀ x : ℕ → ℝ, (∀ r < 2 * 2, E x r = 0) →
      directSolve fsolve (fun _ _ _ => none) bench (.equation (.function (slopeSubderivative 12))) 2 2 []
      (benchSystem (-6) (-4)) 4 x = .ok x := by
    intro x hx
    have : fsolve 4 E x = x := by
      simp only [fsolve, if_pos hx]
    simp only [directSolve, directImpl, bench]
    rw [if_pos (by norm_num)]
    change Except.ok (solverSolve (fun _ => fsolve 4 E x) 2 2 [] x) = _
    rw [this]
    rfl
  have hbal : ∀ x : ℕ → ℝ, (∀ r < 2 * 2, E x r = 0) →
      BalancedField (2 * 2) (benchSystem (-6) (-4)).lhs (fun _ => False) (fun _ => 0)
      (fun r => (benchSystem (-6) (-4)).rhs r -
        sharedForces Real.sqrt (slopeSubderivative 12 · 0 0) benchNodes benchSurfaces 2 x r) x := by
    intro x hx
    exact C113_balance_partial 2 [] (benchSystem (-6) (-4)) (fun _ => False) (fun _ => 0) hval hdir fsolve hf
      (fun _ _ _ => none) bench bench_segments (fun _ _ _ _ _ _ h => h) (slopeSubderivative 12) ⟨x, hx⟩ 4 x x
      (hsol x hx)
  refine ⟨fsolve, hf, x1, x2, x1, x2, hsol x1 r1, hsol x2 r2, hbal x1 r1, hbal x2 r2, ?_⟩
  norm_num [x1, x2]

/-- The contract of the root finder, and what a root finder does with a root for its guess, can be met. -/
theorem bench_finder : ∃ fsolve : RootFinder ℝ, RootContract fsolve ∧
    ∀ n (f : (ℕ → ℝ) → ℕ → ℝ) guess, (∀ r < n, f guess r = 0) → fsolve n f guess = guess := by
  classical
  refine ⟨fun n f guess => if ∀ r < n, f guess r = 0 then guess else
    if h : ∃ x, ∀ r < n, f x r = 0 then h.choose else guess, ?_, ?_⟩
  · intro n f guess hex
    by_cases h : ∀ r < n, f guess r = 0
    · simp only [if_pos h]; exact h
    · simp only [if_neg h, dif_pos hex]; exact hex.choose_spec
  · intro n f guess h
    simp only [if_pos h]

/-- The contract of the linear solver can be met. -/
example : ∃ linalg : LinearSolver ℝ, LinearContract linalg := by
  classical
  refine ⟨fun n A b => if h : UniquelySolvable n ⟨A, b⟩ then some h.choose else none, fun n A b h => ?_⟩
  exact ⟨h.choose, by simp only [dif_pos h], h.choose_spec.1⟩

theorem bench_stores (f f' : ℝ) : StoresEnergy (2 * 2) (benchSystem f f').lhs := by
  refine ⟨fun r _ s _ => (bench_positive f f').1 r s, fun x => ?_⟩
  by_cases h : ∃ r < 4, x r ≠ 0
  · exact ((bench_positive f f').2 x h).le
  · push Not at h
    refine le_of_eq (Eq.symm ?_)
    unfold quad
    exact Finset.sum_eq_zero fun r hr => by simp [h r (Finset.mem_range.1 hr)]

theorem bench_boundaries : ValidBoundaries 2 ([] : List (CondBoundary ℝ)) ∧
    DirichletData 2 2 ([] : List (CondBoundary ℝ)) (fun _ => False) (fun _ => 0) :=
  ⟨by intro b hb; simp at hb,
    fun x => ⟨fun h => h.elim, by rintro ⟨v, b, hb, -⟩; simp at hb⟩, by rintro x v ⟨b, hb, -⟩; simp at hb⟩

/-- The hypotheses of `C113_without_law`. -/
example : ValidBoundaries 2 ([] : List (CondBoundary ℝ)) ∧
    DirichletData 2 2 ([] : List (CondBoundary ℝ)) (fun _ => False) (fun _ => 0) ∧
    DefiniteOn (2 * 2) (fun _ => False) (benchSystem 1 2).lhs := by
  refine ⟨bench_boundaries.1, bench_boundaries.2, fun x _ hq r hr => ?_⟩
  by_contra h
  exact absurd hq ((bench_positive 1 2).2 x ⟨r, hr, h⟩).ne'

/-- The hypotheses of `C113_balance_partial`, `C113_uniform_partial` and `C113_same_partial`: a bench pressed down
by one, for which the direct solver finds the displacement of least energy. -/
example : ∃ (fsolve : RootFinder ℝ) (u : ℕ → ℝ), RootContract fsolve ∧
    directSolve fsolve (fun _ _ _ => none) bench (.equation (.function (slopeSubderivative 12))) 2 2 []
      (benchSystem (-13) (-9)) 4 u = .ok u ∧
    HeldMinimiser (2 * 2) (fun _ => False) (fun _ => 0) (fun y => costFunctional Real.sqrt
      (frictionless (slopePotential 12)) (contactOf 2 benchNodes benchSurfaces 1 0 0) (2 * 2)
      (benchSystem (-13) (-9)).lhs (benchSystem (-13) (-9)).rhs ⟨2 * 2, y⟩) u ∧ u 2 = -1 ∧
    ∀ x, HeldMinimiser (2 * 2) (fun _ => False) (fun _ => 0) (fun y => costFunctional Real.sqrt
      (frictionless (slopePotential 12)) (contactOf 2 benchNodes benchSurfaces 1 0 0) (2 * 2)
      (benchSystem (-13) (-9)).lhs (benchSystem (-13) (-9)).rhs ⟨2 * 2, y⟩) x → ∀ r < 2 * 2, u r = x r := by
  obtain ⟨fsolve, hf, hfix⟩ := bench_finder
  let u : ℕ → ℝ := fun r => if r = 2 then -1 else if r = 3 then -1 else 0
  have hroot := (bench_equation (-13) (-9) u).2 (by norm_num [u])
  have hu : directSolve fsolve (fun _ _ _ => none) bench (.equation (.function (slopeSubderivative 12))) 2 2 []
      (benchSystem (-13) (-9)) 4 u = .ok u := by
    have := hfix (2 * 2) (fun x => directEquation Real.sqrt (slopeSubderivative 12) 2 benchNodes benchSurfaces
      (benchSystem (-13) (-9)).lhs (benchSystem (-13) (-9)).rhs ⟨2 * 2, x⟩) u hroot
    simp only [directSolve, directImpl, bench]
    rw [if_pos (by norm_num)]
    change Except.ok (solverSolve (fun _ => fsolve (2 * 2) (fun x => directEquation Real.sqrt (slopeSubderivative 12) 2
      benchNodes benchSurfaces (benchSystem (-13) (-9)).lhs (benchSystem (-13) (-9)).rhs ⟨2 * 2, x⟩) u) 2 2 [] u) = _
    rw [this]
    rfl
  have heq : ∀ s ∈ benchSurfaces, ∀ a ∈ s.edge, ∀ b ∈ s.edge,
      slopeSubderivative 12 (penetration s fun i => u (i * 2 + a)) 0 0 =
        slopeSubderivative 12 (penetration s fun i => u (i * 2 + b)) 0 0 := by
    intro s hs a ha b hb
    simp only [benchSurfaces, List.mem_singleton] at hs
    subst hs
    simp only [List.mem_cons, List.not_mem_nil, or_false] at ha hb
    rcases ha with rfl | rfl <;> rcases hb with rfl | rfl <;> simp [penetration, u]
  have hp : ∀ x static : ℝ, slopeSubderivative 12 x static 1 = slopeSubderivative 12 x 0 0 := fun _ _ => rfl
  refine ⟨fsolve, u, hf, hu, ?_, by norm_num [u], fun x hx => ?_⟩
  · exact C113_uniform_partial 2 (fun _ => False) (fun _ => 0) [] (benchSystem (-13) (-9)) bench_boundaries.1
      bench_boundaries.2 fsolve hf (fun _ _ _ => none) bench rfl bench_segments (fun _ _ _ _ _ _ h => h)
      (slopePotential 12) (slopeSubderivative 12) 1 0 0 hp (fun a st => C47_derivative 12 st 1 a)
      (fun st => C47_convex 12 st 1 (by norm_num)) (bench_stores _ _) ⟨u, hroot⟩ 4 u u hu heq
  · exact C113_same_partial 2 (fun _ => False) (fun _ => 0) [] (benchSystem (-13) (-9)) bench_boundaries.1
      bench_boundaries.2 fsolve hf (fun _ _ _ => none) bench rfl bench_segments (fun _ _ _ _ _ _ h => h)
      (slopePotential 12) (slopeSubderivative 12) 1 0 0 hp (fun a st => C47_derivative 12 st 1 a)
      (fun st => C47_convex 12 st 1 (by norm_num)) (bench_stores _ _) (fun x _ h => (bench_positive _ _).2 x h)
      ⟨u, hroot⟩ 4 u u hu heq x hx

/-- The hypotheses of `C113_end_wrong` and `C113_least`: what the direct solver may find for a bench on which the
loads are not equal does not have the least energy. -/
example : ¬ HeldMinimiser (2 * 2) (fun _ => False) (fun _ => 0) (fun y => costFunctional Real.sqrt
      (frictionless (slopePotential 12)) (contactOf 2 benchNodes benchSurfaces 1 0 0) (2 * 2)
      (benchSystem (-6) (-4)).lhs (benchSystem (-6) (-4)).rhs ⟨2 * 2, y⟩)
    (fun r => if r = 2 then -4 / 7 else if r = 3 then -2 / 7 else 0) := by
  have hroot := (bench_equation (-6) (-4) fun r => if r = 2 then -4 / 7 else if r = 3 then -2 / 7 else 0).2
    (by norm_num)
  have hb := (C113_found 2 [] (benchSystem (-6) (-4)) (fun _ => False) (fun _ => 0) bench_boundaries.1
    bench_boundaries.2 Real.sqrt (slopeSubderivative 12) benchNodes benchSurfaces bench_segments _ hroot
    fun _ => 0).2
  refine C113_end_wrong 2 (fun _ => False) (fun _ => 0) (slopePotential 12) (slopeSubderivative 12)
    (fun y => slopeSubderivative 12 y 0 0) benchNodes [] [] ⟨[0, 1], fun i => if i = 1 then -1 else 0⟩ 0 1 1
    (Or.inl rfl) (by norm_num) (by norm_num) (by simp) bench_segments 1 0 0 (fun _ _ => rfl)
    (fun a st => C47_derivative 12 st 1 a) (fun st => C47_convex 12 st 1 (by norm_num)) (benchSystem (-6) (-4))
    (bench_stores _ _) _ hb (fun h => h) (by norm_num) ?_ ?_
  · rw [bench_length]; norm_num
  · norm_num [penetration, slopeSubderivative]

/-- The hypotheses of `C113_reactions`: any displacement of the plate, with the loads that hold it. -/
example (u : ℕ → ℝ) : ∃ f : ℕ → ℝ, BalancedField (2 * 4)
    (Plane.constitutive 4 (basicMatrices2 [[0, 1, 2], [0, 2, 3]] plateNodes).W 2 1) (fun r => 2 ≤ r % 4) u
    (fun r => f r - sharedForces Real.sqrt (fun y => slopeSubderivative 12 y 0 0) plateNodes
      [⟨[0, 1], fun i => if i = 1 then -1 else 0⟩] 4 u r) u :=
  ⟨fun r => act (2 * 4) (Plane.constitutive 4 (basicMatrices2 [[0, 1, 2], [0, 2, 3]] plateNodes).W 2 1) u r +
    sharedForces Real.sqrt (fun y => slopeSubderivative 12 y 0 0) plateNodes
      [⟨[0, 1], fun i => if i = 1 then -1 else 0⟩] 4 u r, fun _ _ _ => rfl, fun r _ _ => by simp⟩

end witness
end Conmech
