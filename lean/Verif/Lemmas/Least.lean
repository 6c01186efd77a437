import Verif.Lemmas.Obstacle
import Verif.Props.ContactSteps
/-!
Least energy under a constraint: condensed and eliminated systems.
-/
namespace Conmech
open Spec

section condensed
variable (inv : ℕ → (ℕ → ℕ → ℝ) → ℕ → ℕ → ℝ) (hinv : InvContract inv)
  (S : System ℝ) (N C dim : ℕ) (hC : C ≤ N) (hd : dim = 1 ∨ dim = 2) (B : ℕ → ℕ → ℝ)
  (hB : FreeBlockInverse N C dim S.lhs B)
  (hA : ∀ r < dim * N, ∀ s < dim * N, S.lhs r s = S.lhs s r)
  (hpos : ∀ x : ℕ → ℝ, (∀ d < dim, ∀ i < C, x (d * N + i) = 0) → 0 ≤ quad (dim * N) S.lhs x)
  (Φ φ : (ℕ → ℝ) → ℝ) (hφ : ∀ xc x, IsContactPart N C dim xc x → φ xc = Φ x)
  (P Q : (ℕ → ℝ) → Prop) (hPQ : ∀ xc x, IsContactPart N C dim xc x → (P xc ↔ Q x))
include hinv hC hd hB hA hpos hφ hPQ

/-- What is recovered from a condensed minimiser under a constraint is a minimiser under the constraint. -/
theorem recovered_least (minimise : (ℕ → ℕ → ℝ) → (ℕ → ℝ) → (ℕ → ℝ) → ℕ → ℝ) (len : ℕ) (guess : ℕ → ℝ) :
    let s := SchurSolver.init inv N C dim false S
    let J := fun xc => energy (dim * C) ⟨s.matrices.boundary, s.nodeForces⟩ xc + φ xc
    let xc := minimise s.matrices.boundary s.nodeForces (s.truncateFreeNodes len guess)
    (P xc ∧ ∀ yc, P yc → J xc ≤ J yc) →
    Q (s.solveImpl minimise len guess) ∧
    ∀ y, Q y → energy (dim * N) S (s.solveImpl minimise len guess) + Φ (s.solveImpl minimise len guess) ≤
      energy (dim * N) S y + Φ y := by
  intro s J xc hmin
  have h0 : 0 < dim := by omega
  have hsp := split_nodes ℝ N C dim hC
  have hG := schurInverse_isInverse inv hinv _ B N C dim hB
  have hsys : (⟨s.matrices.boundary, s.nodeForces⟩ : System ℝ) =
      condensed (dim * (N - C)) (cIdx N C) (fIdx N C) (schurInverse inv N C dim S.lhs) S := by
    have hi := init_eq inv S N C dim h0 false
    rw [show s.matrices.boundary = _ from congrArg (fun s => s.matrices.boundary) hi,
      show s.nodeForces = _ from congrArg (fun s => s.nodeForces) hi]
  have hc : ∀ i < dim * C, s.solveImpl minimise len guess (cIdx N C i) = xc i :=
    fun i hi => solveImpl_contact inv S N C dim hC hd minimise len guess i hi
  have hf : ∀ j < dim * (N - C), s.solveImpl minimise len guess (fIdx N C j) = _ :=
    fun j hj => solveImpl_free inv S N C dim hC hd minimise len guess j hj
  have e1 := energy_recovered hsp S _ hA hG _ xc hc hf
  refine ⟨(hPQ xc _ (contactPart_iff.2 hc)).1 hmin.1, fun y hy => ?_⟩
  let yc : ℕ → ℝ := fun i => y (cIdx N C i)
  let ys : ℕ → ℝ := s.solveImpl (fun _ _ _ => yc) len guess
  have hyc : ∀ i < dim * C, ys (cIdx N C i) = yc i :=
    fun i hi => solveImpl_contact inv S N C dim hC hd _ len guess i hi
  have hyf : ∀ j < dim * (N - C), ys (fIdx N C j) = _ :=
    fun j hj => solveImpl_free inv S N C dim hC hd _ len guess j hj
  have hpart : IsContactPart N C dim yc y := contactPart_iff.2 fun _ _ => rfl
  have e2 := energy_split hsp S _ hA hG y ys yc (fun _ _ => rfl) hyc hyf
  have e3 : 0 ≤ quad (dim * N) S.lhs (fun k => y k - ys k) := by
    apply hpos
    intro d hdd i hi
    have h1 := contactPart_iff.2 hyc d hdd i hi
    rw [← hpart d hdd i hi, h1]; ring
  have e4 := hmin.2 yc ((hPQ yc y hpart).2 hy)
  simp only [J] at e4
  rw [hsys] at e4
  rw [← hφ xc _ (contactPart_iff.2 hc), ← hφ yc y hpart, e1, e2]
  linarith

/-- Conversely the contact part of a minimiser under a constraint is a condensed minimiser. -/
theorem restricted_least (x xc : ℕ → ℝ) (hxc : IsContactPart N C dim xc x)
    (hmin : Q x ∧ ∀ y, Q y → energy (dim * N) S x + Φ x ≤ energy (dim * N) S y + Φ y) :
    let s := SchurSolver.init inv N C dim false S
    P xc ∧ ∀ yc, P yc → energy (dim * C) ⟨s.matrices.boundary, s.nodeForces⟩ xc + φ xc ≤
      energy (dim * C) ⟨s.matrices.boundary, s.nodeForces⟩ yc + φ yc := by
  intro s
  refine ⟨(hPQ xc x hxc).2 hmin.1, fun yc hyc => ?_⟩
  have h0 : 0 < dim := by omega
  have hsp := split_nodes ℝ N C dim hC
  have hG := schurInverse_isInverse inv hinv _ B N C dim hB
  have hsys : (⟨s.matrices.boundary, s.nodeForces⟩ : System ℝ) =
      condensed (dim * (N - C)) (cIdx N C) (fIdx N C) (schurInverse inv N C dim S.lhs) S := by
    have hi := init_eq inv S N C dim h0 false
    rw [show s.matrices.boundary = _ from congrArg (fun s => s.matrices.boundary) hi,
      show s.nodeForces = _ from congrArg (fun s => s.nodeForces) hi]
  let zero : ℕ → ℝ := fun _ => 0
  have hc : ∀ zc : ℕ → ℝ, ∀ i < dim * C,
      s.solveImpl (fun _ _ _ => zc) 0 zero (cIdx N C i) = zc i :=
    fun zc i hi => solveImpl_contact inv S N C dim hC hd _ 0 zero i hi
  have hf : ∀ zc : ℕ → ℝ, ∀ j < dim * (N - C),
      s.solveImpl (fun _ _ _ => zc) 0 zero (fIdx N C j) = _ :=
    fun zc j hj => solveImpl_free inv S N C dim hC hd _ 0 zero j hj
  have e1 := energy_recovered hsp S _ hA hG _ yc (hc yc) (hf yc)
  have e2 := energy_split hsp S _ hA hG x _ xc (contactPart_iff.1 hxc) (hc xc) (hf xc)
  have e3 : 0 ≤ quad (dim * N) S.lhs (fun k => x k - s.solveImpl (fun _ _ _ => xc) 0 zero k) := by
    apply hpos
    intro d hdd i hi
    have h1 := contactPart_iff.2 (hc xc) d hdd i hi
    rw [← hxc d hdd i hi, h1]; ring
  have hpart := contactPart_iff.2 (hc yc)
  have e4 := hmin.2 (s.solveImpl (fun _ _ _ => yc) 0 zero) ((hPQ yc _ hpart).1 hyc)
  rw [← hφ yc _ hpart, ← hφ xc x hxc, e1, e2] at e4
  rw [hsys]
  linarith

end condensed

section eliminated
variable (N dim : ℕ) (bs : List (CondBoundary ℝ)) (S : System ℝ) (D : ℕ → Prop) [DecidablePred D] (g : ℕ → ℝ)
  (hv : ValidBoundaries N bs) (hd : DirichletData N dim bs D g)
  (hA : ∀ r < dim * N, ∀ s < dim * N, S.lhs r s = S.lhs s r) (J : (ℕ → ℝ) → ℝ) (Q : (ℕ → ℝ) → Prop)

omit [DecidablePred D] in
theorem heldAt_idem [DecidablePred D] (y : ℕ → ℝ) : heldAt D g (heldAt D g y) = heldAt D g y := by
  funext r; by_cases h : D r <;> simp [heldAt, h]

theorem heldAt_held {n : ℕ} {y : ℕ → ℝ} (hy : HeldTo n D g y) : ∀ r < n, heldAt D g y r = y r := fun r hr => by
  by_cases h : D r
  · simp [heldAt, h, hy r hr h]
  · simp [heldAt, h]

theorem heldAt_heldTo (n : ℕ) (y : ℕ → ℝ) : HeldTo n D g (heldAt D g y) := fun r _ hD => by simp [heldAt, hD]

include hv hd hA

/-- Least energy among the fields with the prescribed values is least energy of the eliminated system, if
neither the cost nor the constraint sees the unknowns of the supports. -/
theorem eliminated_least (hJ : ∀ x y : ℕ → ℝ, (∀ r < dim * N, x r = y r) → J x = J y)
    (hQD : ∀ y, Q (heldAt D g y) ↔ Q y) {x : ℕ → ℝ} (hx : LeastUnder (dim * N) D g S J Q x) :
    Q x ∧ ∀ y, Q y → energy (dim * N) (applyDirichlet N dim bs S) x + J (heldAt D g x) ≤
      energy (dim * N) (applyDirichlet N dim bs S) y + J (heldAt D g y) := by
  obtain ⟨k, hk⟩ := C101_springs N dim bs S D g hv hd hA
  refine ⟨hx.allowed, fun y hy => ?_⟩
  have h1 := hx.least (heldAt D g y) (heldAt_heldTo D g _ y) ((hQD y).2 hy)
  have hsame := heldAt_held D g hx.held
  rw [hk, hk, hJ _ _ hsame, energy_same (dim * N) S hsame]
  have h2 : (∑ r ∈ Finset.range (dim * N), if D r then (x r - g r) ^ 2 else 0) = 0 :=
    Finset.sum_eq_zero fun r hr => by
      split_ifs with h
      · rw [hx.held r (Finset.mem_range.1 hr) h]; ring
      · rfl
  have h3 : 0 ≤ ∑ r ∈ Finset.range (dim * N), if D r then (y r - g r) ^ 2 else 0 :=
    Finset.sum_nonneg fun r _ => by split_ifs <;> positivity
  rw [h2]
  linarith

/-- And conversely. -/
theorem least_of_eliminated (hJ : ∀ x y : ℕ → ℝ, (∀ r < dim * N, x r = y r) → J x = J y)
    (hQD : ∀ y, Q (heldAt D g y) ↔ Q y) {x : ℕ → ℝ}
    (hx : Q x ∧ ∀ y, Q y → energy (dim * N) (applyDirichlet N dim bs S) x + J (heldAt D g x) ≤
      energy (dim * N) (applyDirichlet N dim bs S) y + J (heldAt D g y)) :
    LeastUnder (dim * N) D g S J Q (heldAt D g x) := by
  obtain ⟨k, hk⟩ := C101_springs N dim bs S D g hv hd hA
  refine ⟨heldAt_heldTo D g _ x, (hQD x).2 hx.1, fun y hyg hy => ?_⟩
  have h1 := hx.2 y hy
  have hsame := heldAt_held D g hyg
  rw [hk, hk, hJ _ _ hsame, energy_same (dim * N) S hsame] at h1
  have h2 : (∑ r ∈ Finset.range (dim * N), if D r then (y r - g r) ^ 2 else 0) = 0 :=
    Finset.sum_eq_zero fun r hr => by
      split_ifs with h
      · rw [hyg r (Finset.mem_range.1 hr) h]; ring
      · rfl
  have h3 : 0 ≤ ∑ r ∈ Finset.range (dim * N), if D r then (x r - g r) ^ 2 else 0 :=
    Finset.sum_nonneg fun r _ => by split_ifs <;> positivity
  rw [h2] at h1
  linarith

end eliminated

section obstacle
variable {N dim C : ℕ} {bs : List (CondBoundary ℝ)} {S : System ℝ} {D : ℕ → Prop} [DecidablePred D] {g : ℕ → ℝ}
  {nodes : ℕ → ℕ → ℝ} {surfaces : List (Surface ℝ)} {φ : ℝ → ℝ} {ψ : List ℝ → ℝ} {d : ContactData ℝ}
  {P Q : (ℕ → ℝ) → Prop}

theorem positive_of_definite {n : ℕ} {A : ℕ → ℕ → ℝ} (hA : StoresEnergy n A) (hdef : DefiniteOn n D A) :
    ∀ x : ℕ → ℝ, (∀ r < n, D r → x r = 0) → (∃ r < n, x r ≠ 0) → 0 < quad n A x := by
  intro x hx ⟨r, hr, hne⟩
  exact lt_of_le_of_ne (hA.nonneg x) fun h => hne (hdef x hx h.symm r hr)

theorem obstacleCost_same (h0 : 0 < dim) (hn : ∀ s ∈ surfaces, ∀ node ∈ s.edge, node < N) (x y : ℕ → ℝ)
    (h : ∀ r < dim * N, x r = y r) :
    obstacleCost dim N nodes surfaces φ ψ x = obstacleCost dim N nodes surfaces φ ψ y := by
  refine obstacleCost_congr h0 _ _ fun s hs node hnode i hi => h _ ?_
  have := hn s hs node hnode
  calc i * N + node < i * N + N := by omega
    _ = (i + 1) * N := by ring
    _ ≤ dim * N := Nat.mul_le_mul_right _ hi

variable (hv : ValidBoundaries N bs) (hd : DirichletData N dim bs D g) (hA : StoresEnergy (dim * N) S.lhs)
  (h0 : 0 < dim) (hdim : d.variableDimension = dim) (hnodes : d.nodes = nodes) (hsurf : d.surfaces = surfaces)
  (hQD : ∀ y, Q (heldAt D g y) ↔ Q y)
include hv hd hA h0 hdim hnodes hsurf hQD

/-- The global method on a body whose supports are apart from the contact surfaces: the fields of least energy
are minimisers of the functional, and minimisers of the functional are fields of least energy. -/
theorem global_least (hn : ∀ s ∈ surfaces, ∀ node ∈ s.edge, node < N ∧ ∀ i < dim, ¬ D (i * N + node)) :
    (∀ x, LeastUnder (dim * N) D g S (obstacleCost dim N nodes surfaces φ ψ) Q x → Q x ∧ ∀ y, Q y →
      costFunctional Real.sqrt (obstacleLaw φ ψ) d (dim * N) (applyDirichlet N dim bs S).lhs
        (applyDirichlet N dim bs S).rhs ⟨dim * N, x⟩ ≤
      costFunctional Real.sqrt (obstacleLaw φ ψ) d (dim * N) (applyDirichlet N dim bs S).lhs
        (applyDirichlet N dim bs S).rhs ⟨dim * N, y⟩) ∧
    ∀ x guess, (Q x ∧ ∀ y, Q y →
      costFunctional Real.sqrt (obstacleLaw φ ψ) d (dim * N) (applyDirichlet N dim bs S).lhs
        (applyDirichlet N dim bs S).rhs ⟨dim * N, x⟩ ≤
      costFunctional Real.sqrt (obstacleLaw φ ψ) d (dim * N) (applyDirichlet N dim bs S).lhs
        (applyDirichlet N dim bs S).rhs ⟨dim * N, y⟩) →
      LeastUnder (dim * N) D g S (obstacleCost dim N nodes surfaces φ ψ) Q
        (solverSolve (fun _ => x) N dim bs guess) := by
  have hJ := obstacleCost_same (nodes := nodes) (φ := φ) (ψ := ψ) h0 fun s hs node hnode => (hn s hs node hnode).1
  have hJD : ∀ y, obstacleCost dim N nodes surfaces φ ψ (heldAt D g y) = obstacleCost dim N nodes surfaces φ ψ y :=
    fun y => obstacleCost_congr h0 _ _ fun s hs node hnode i hi => by
      simp only [heldAt, if_neg ((hn s hs node hnode).2 i hi)]
  have e : ∀ x, costFunctional Real.sqrt (obstacleLaw φ ψ) d (dim * N) (applyDirichlet N dim bs S).lhs
        (applyDirichlet N dim bs S).rhs ⟨dim * N, x⟩ = energy (dim * N) (applyDirichlet N dim bs S) x +
          obstacleCost dim N nodes surfaces φ ψ (heldAt D g x) := fun x => by
    rw [hJD, ← contactCost_full φ ψ d hdim hnodes hsurf h0 (fun s hs node hnode => (hn s hs node hnode).1) x]
    exact C48_energy Real.sqrt (obstacleLaw φ ψ) d (dim * N) (applyDirichlet N dim bs S) ⟨dim * N, x⟩
  simp only [e]
  refine ⟨fun x hx => eliminated_least N dim bs S D g hv hd hA.symm _ Q hJ hQD hx, fun x guess hx => ?_⟩
  have hu : solverSolve (fun _ => x) N dim bs guess = heldAt D g x := by
    funext r
    rw [C16_solution_satisfies_dirichlet N dim bs D g _ guess hv hd]
    rfl
  rw [hu]
  exact least_of_eliminated N dim bs S D g hv hd hA.symm _ Q hJ hQD hx

/-- The condensed method: the contact part of a field of least energy is a minimiser of the condensed
functional, and what is recovered from a minimiser of the condensed functional has least energy. -/
theorem condensed_least (hdef : DefiniteOn (dim * N) D S.lhs)
    (inv : ℕ → (ℕ → ℕ → ℝ) → ℕ → ℕ → ℝ) (hinv : InvContract inv) (hC : C ≤ N) (h12 : dim = 1 ∨ dim = 2)
    (hap : SupportsApart N C dim D surfaces) (hold : d.old.get = fun _ => 0)
    (hg : HeldOnContact N dim D g surfaces fun _ => 0)
    (hPQ : ∀ xc x, IsContactPart N C dim xc x → (P xc ↔ Q x)) :
    let c := SchurSolver.init inv N C dim false (applyDirichlet N dim bs S)
    let F := fun xc => costFunctional Real.sqrt (obstacleLaw φ ψ) d (dim * C) c.matrices.boundary c.nodeForces
      ⟨dim * C, xc⟩
    (∀ x xc, LeastUnder (dim * N) D g S (obstacleCost dim N nodes surfaces φ ψ) Q x → IsContactPart N C dim xc x →
      P xc ∧ ∀ yc, P yc → F xc ≤ F yc) ∧
    ∀ minimise len guess,
      (P (minimise c.matrices.boundary c.nodeForces (c.truncateFreeNodes len guess)) ∧
        ∀ yc, P yc → F (minimise c.matrices.boundary c.nodeForces (c.truncateFreeNodes len guess)) ≤ F yc) →
      LeastUnder (dim * N) D g S (obstacleCost dim N nodes surfaces φ ψ) Q
        (solverSolve (c.solveImpl minimise len) N dim bs guess) := by
  intro c F
  have hn : ∀ s ∈ surfaces, ∀ node ∈ s.edge, node < N := fun s hs node hnode => by
    rcases hap s hs node hnode with h | h <;> omega
  have hJ := obstacleCost_same (nodes := nodes) (φ := φ) (ψ := ψ) h0 hn
  have hA' := C13_symmetric N dim bs S D g hv hd hA.symm
  have hpos' : PositiveForm (dim * N) (applyDirichlet N dim bs S).lhs :=
    C13_positive N dim bs S D g hv hd (positive_of_definite hA hdef)
  obtain ⟨B, hB⟩ := freeBlock_exists N C dim hC _ hpos'
  have hnn : ∀ x : ℕ → ℝ, (∀ d < dim, ∀ i < C, x (d * N + i) = 0) →
      0 ≤ quad (dim * N) (applyDirichlet N dim bs S).lhs x := fun x _ => by
    by_cases hx : ∃ r < dim * N, x r ≠ 0
    · exact (hpos' x hx).le
    · push Not at hx
      unfold quad
      exact (Finset.sum_eq_zero fun r hr => by rw [hx r (Finset.mem_range.1 hr), zero_mul]).ge
  have hcost : ∀ xc x, IsContactPart N C dim xc x →
      contactCostFunctional Real.sqrt (obstacleLaw φ ψ) d ⟨dim * C, xc⟩ =
        obstacleCost dim N nodes surfaces φ ψ (heldAt D g x) := fun xc x hx => by
    refine contactCost_obstacle φ ψ d hdim hnodes hsurf h0 _ _ fun s hs node hnode i hi => ?_
    unfold nodeValue atNode
    simp only [Nat.mul_div_cancel_left _ h0, hold]
    rcases hap s hs node hnode with ⟨h1, h2⟩ | ⟨h1, h2, h3⟩
    · rw [if_pos h1]
      simp only [heldAt, if_neg (h2 i hi)]
      exact hx i hi node h1
    · rw [if_neg (by omega)]
      simp only [heldAt, if_pos (h3 i hi)]
      exact hg s hs node hnode i hi (h3 i hi)
  have e : ∀ xc, F xc = energy (dim * C) ⟨c.matrices.boundary, c.nodeForces⟩ xc +
      contactCostFunctional Real.sqrt (obstacleLaw φ ψ) d ⟨dim * C, xc⟩ := fun xc =>
    C48_energy Real.sqrt (obstacleLaw φ ψ) d (dim * C) ⟨c.matrices.boundary, c.nodeForces⟩ ⟨dim * C, xc⟩
  simp only [e]
  constructor
  · intro x xc hx hxc
    exact restricted_least inv hinv _ N C dim hC h12 B hB hA' hnn
      (fun x => obstacleCost dim N nodes surfaces φ ψ (heldAt D g x))
      (fun xc => contactCostFunctional Real.sqrt (obstacleLaw φ ψ) d ⟨dim * C, xc⟩) hcost P Q hPQ x xc hxc
      (eliminated_least N dim bs S D g hv hd hA.symm _ Q hJ hQD hx)
  · intro minimise len guess hmin
    have hu : solverSolve (c.solveImpl minimise len) N dim bs guess =
        heldAt D g (c.solveImpl minimise len guess) := by
      funext r
      rw [C16_solution_satisfies_dirichlet N dim bs D g _ guess hv hd]
      rfl
    rw [hu]
    exact least_of_eliminated N dim bs S D g hv hd hA.symm _ Q hJ hQD
      (recovered_least inv hinv _ N C dim hC h12 B hB hA' hnn
        (fun x => obstacleCost dim N nodes surfaces φ ψ (heldAt D g x))
        (fun xc => contactCostFunctional Real.sqrt (obstacleLaw φ ψ) d ⟨dim * C, xc⟩) hcost P Q hPQ minimise len
        guess hmin)

end obstacle

end Conmech
