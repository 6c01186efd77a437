import Verif.Spec.SpaceStatic
import Verif.Props.Solvable
import Verif.Props.Superposition
import Verif.Props.Static
import Verif.Model.Simulations
/-!
C120: static problems of elastic bodies in space.

The elasticity matrix which the code assembles on tetrahedra is that of Hooke's law for equal
coefficients only, see C27.
-/
namespace Conmech
open Spec

section
variable {K : Type} [Field K] [LinearOrder K] [IsStrictOrderedRing K]
variable {N : ℕ} {elements : List (List ℕ)} {nodes : ℕ → ℕ → K}

omit [LinearOrder K] [IsStrictOrderedRing K] in
/-- The density of the code as a sum of squares. -/
theorem hookeAsCoded_squares (mu lam : K) (U : ℕ → ℕ → K) :
    hookeAsCoded mu lam U U =
      (mu + lam) * (U 0 0 ^ 2 + U 1 1 ^ 2 + U 2 2 ^ 2) + mu * (U 0 0 + U 1 1 + U 2 2) ^ 2 +
      lam * ((U 0 1 + U 1 0) ^ 2 + (U 0 2 + U 2 0) ^ 2 + (U 1 2 + U 2 1) ^ 2) +
      (mu - lam) * (U 0 1 ^ 2 + U 1 0 ^ 2 + U 2 0 ^ 2) := by
  simp only [hookeAsCoded]; ring

theorem hookeAsCoded_nonneg {mu lam : K} (hlam : 0 ≤ lam) (hle : lam ≤ mu) (U : ℕ → ℕ → K) :
    0 ≤ hookeAsCoded mu lam U U := by
  rw [hookeAsCoded_squares]
  have h1 : 0 ≤ mu := hlam.trans hle
  have h2 : 0 ≤ mu - lam := sub_nonneg.2 hle
  positivity

/-- C120, part: for `0 ≤ λ ≤ μ` the elasticity matrix of a tetrahedral mesh stores energy. -/
theorem C120_nonneg_partial (hv : ValidElements 3 N elements) (hn : Nondegenerate3 elements nodes)
    (mu lam : K) (hlam : 0 ≤ lam) (hle : lam ≤ mu) :
    StoresEnergy (3 * N) (Space.constitutive N (basicMatrices3 elements nodes).W mu lam) := by
  refine storesEnergy_of_form (C27_symmetric_translation_partial hv hn mu lam).1 fun x => ?_
  obtain ⟨X, hX⟩ := exists_vectorGradient (N := N) (Space.allLocal hn) x
  rw [form_constitutive3 hv hn mu lam x x X X hX hX]
  exact sumElements_nonneg _ _ fun t ht =>
    mul_nonneg (Space.allLocal hn _ (getD_mem ht)).pos.le (hookeAsCoded_nonneg hlam hle _)

/-- A tetrahedron without strain three vertices of which do not move. -/
theorem tetrahedron_zero {X : ℕ → ℕ → K} (hX : det3 X ≠ 0) {U : ℕ → ℕ → K} {vals : ℕ → ℕ → K}
    (hg : ∀ a < 3, IsGradient 3 X (vals a) (U a)) (hs : ∀ a < 3, ∀ b < 3, U a b + U b a = 0)
    (i j k : ℕ) (hi : i < 4) (hj : j < 4) (hk : k < 4) (hij : i ≠ j) (hik : i ≠ k) (hjk : j ≠ k)
    (h1 : ∀ a < 3, vals a i = 0) (h2 : ∀ a < 3, vals a j = 0) (h3 : ∀ a < 3, vals a k = 0) :
    ∀ a < 3, ∀ l < 4, vals a l = 0 := by
  obtain ⟨c0, g0⟩ := hg 0 (by omega)
  obtain ⟨c1, g1⟩ := hg 1 (by omega)
  obtain ⟨c2, g2⟩ := hg 2 (by omega)
  simp only [Finset.sum_range_succ, Finset.sum_range_zero, zero_add] at g0 g1 g2
  have s00 : U 0 0 = 0 := by have := hs 0 (by omega) 0 (by omega); linarith
  have s11 : U 1 1 = 0 := by have := hs 1 (by omega) 1 (by omega); linarith
  have s22 : U 2 2 = 0 := by have := hs 2 (by omega) 2 (by omega); linarith
  have s10 : U 1 0 = - U 0 1 := by have := hs 1 (by omega) 0 (by omega); linarith
  have s20 : U 2 0 = - U 0 2 := by have := hs 2 (by omega) 0 (by omega); linarith
  have s21 : U 2 1 = - U 1 2 := by have := hs 2 (by omega) 1 (by omega); linarith
  rw [s00] at g0
  rw [s11, s10] at g1
  rw [s22, s20, s21] at g2
  have a0 := g0 i hi
  have a1 := g1 i hi
  have a2 := g2 i hi
  have b0 := g0 j hj
  have b1 := g1 j hj
  have b2 := g2 j hj
  have d0 := g0 k hk
  have d1 := g1 k hk
  have d2 := g2 k hk
  rw [h1 0 (by omega)] at a0
  rw [h1 1 (by omega)] at a1
  rw [h1 2 (by omega)] at a2
  rw [h2 0 (by omega)] at b0
  rw [h2 1 (by omega)] at b1
  rw [h2 2 (by omega)] at b2
  rw [h3 0 (by omega)] at d0
  rw [h3 1 (by omega)] at d1
  rw [h3 2 (by omega)] at d2
  -- the differences of the fixed vertices are parallel to the axis of the rotation
  have p0 : U 0 1 * (X j 1 - X i 1) + U 0 2 * (X j 2 - X i 2) = 0 := by linear_combination a0 - b0
  have p1 : - U 0 1 * (X j 0 - X i 0) + U 1 2 * (X j 2 - X i 2) = 0 := by linear_combination a1 - b1
  have p2 : U 0 2 * (X j 0 - X i 0) + U 1 2 * (X j 1 - X i 1) = 0 := by linear_combination b2 - a2
  have q0 : U 0 1 * (X k 1 - X i 1) + U 0 2 * (X k 2 - X i 2) = 0 := by linear_combination a0 - d0
  have q1 : - U 0 1 * (X k 0 - X i 0) + U 1 2 * (X k 2 - X i 2) = 0 := by linear_combination a1 - d1
  have q2 : U 0 2 * (X k 0 - X i 0) + U 1 2 * (X k 1 - X i 1) = 0 := by linear_combination d2 - a2
  -- so their cross product would vanish
  have hz : ∀ w, (w * ((X j 1 - X i 1) * (X k 2 - X i 2) - (X j 2 - X i 2) * (X k 1 - X i 1)) = 0 ∧
      w * ((X j 2 - X i 2) * (X k 0 - X i 0) - (X j 0 - X i 0) * (X k 2 - X i 2)) = 0 ∧
      w * ((X j 0 - X i 0) * (X k 1 - X i 1) - (X j 1 - X i 1) * (X k 0 - X i 0)) = 0) → w = 0 := by
    rintro w ⟨r0, r1, r2⟩
    by_contra hne
    have r0 := (mul_eq_zero.1 r0).resolve_left hne
    have r1 := (mul_eq_zero.1 r1).resolve_left hne
    have r2 := (mul_eq_zero.1 r2).resolve_left hne
    apply hX
    unfold det3
    interval_cases i <;> interval_cases j <;> first | exact absurd rfl hij | skip
    all_goals interval_cases k <;> first | exact absurd rfl hik | exact absurd rfl hjk | skip
    all_goals first
      | linear_combination (X 0 0 - X 1 0) * r0 + (X 0 1 - X 1 1) * r1 + (X 0 2 - X 1 2) * r2
      | linear_combination (X 1 0 - X 0 0) * r0 + (X 1 1 - X 0 1) * r1 + (X 1 2 - X 0 2) * r2
      | linear_combination (X 0 0 - X 2 0) * r0 + (X 0 1 - X 2 1) * r1 + (X 0 2 - X 2 2) * r2
      | linear_combination (X 2 0 - X 0 0) * r0 + (X 2 1 - X 0 1) * r1 + (X 2 2 - X 0 2) * r2
      | linear_combination (X 0 0 - X 3 0) * r0 + (X 0 1 - X 3 1) * r1 + (X 0 2 - X 3 2) * r2
      | linear_combination (X 3 0 - X 0 0) * r0 + (X 3 1 - X 0 1) * r1 + (X 3 2 - X 0 2) * r2
      | linear_combination (X 1 0 - X 2 0) * r0 + (X 1 1 - X 2 1) * r1 + (X 1 2 - X 2 2) * r2
      | linear_combination (X 2 0 - X 1 0) * r0 + (X 2 1 - X 1 1) * r1 + (X 2 2 - X 1 2) * r2
      | linear_combination (X 1 0 - X 3 0) * r0 + (X 1 1 - X 3 1) * r1 + (X 1 2 - X 3 2) * r2
      | linear_combination (X 3 0 - X 1 0) * r0 + (X 3 1 - X 1 1) * r1 + (X 3 2 - X 1 2) * r2
      | linear_combination (X 2 0 - X 3 0) * r0 + (X 2 1 - X 3 1) * r1 + (X 2 2 - X 3 2) * r2
      | linear_combination (X 3 0 - X 2 0) * r0 + (X 3 1 - X 2 1) * r1 + (X 3 2 - X 2 2) * r2
  have w01 : U 0 1 = 0 := hz _ ⟨by linear_combination (X k 2 - X i 2) * p0 - (X j 2 - X i 2) * q0,
    by linear_combination (X k 2 - X i 2) * p1 - (X j 2 - X i 2) * q1,
    by linear_combination (1 / 2) * (((X j 0 - X i 0) * q0 - (X k 0 - X i 0) * p0) - ((X k 1 - X i 1) * p1 - (X j 1 - X i 1) * q1) -
      ((X k 2 - X i 2) * p2 - (X j 2 - X i 2) * q2))⟩
  have w02 : U 0 2 = 0 := hz _ ⟨by linear_combination (X j 1 - X i 1) * q0 - (X k 1 - X i 1) * p0,
    by linear_combination (-1 / 2) * (((X j 0 - X i 0) * q0 - (X k 0 - X i 0) * p0) + ((X k 1 - X i 1) * p1 - (X j 1 - X i 1) * q1) +
      ((X k 2 - X i 2) * p2 - (X j 2 - X i 2) * q2)),
    by linear_combination (X k 1 - X i 1) * p2 - (X j 1 - X i 1) * q2⟩
  have w12 : U 1 2 = 0 := hz _ ⟨by
    linear_combination (-1 / 2) * (((X j 0 - X i 0) * q0 - (X k 0 - X i 0) * p0) + ((X k 1 - X i 1) * p1 - (X j 1 - X i 1) * q1) -
      ((X k 2 - X i 2) * p2 - (X j 2 - X i 2) * q2)),
    by linear_combination (X k 0 - X i 0) * p1 - (X j 0 - X i 0) * q1,
    by linear_combination (X j 0 - X i 0) * q2 - (X k 0 - X i 0) * p2⟩
  rw [w01, w02] at g0 a0
  rw [w01, w12] at g1 a1
  rw [w02, w12] at g2 a2
  have hc0 : c0 = 0 := by linarith
  have hc1 : c1 = 0 := by linarith
  have hc2 : c2 = 0 := by linarith
  intro a ha l hl
  interval_cases a
  · rw [g0 l hl, hc0]; ring
  · rw [g1 l hl, hc1]; ring
  · rw [g2 l hl, hc2]; ring

/-- Fields of positive density are strained. -/
theorem hookeAsCoded_definite {mu lam : K} (hlam : 0 < lam) (hle : lam ≤ mu) (U : ℕ → ℕ → K)
    (h0 : hookeAsCoded mu lam U U = 0) : ∀ a < 3, ∀ b < 3, U a b + U b a = 0 := by
  rw [hookeAsCoded_squares] at h0
  have hmu : 0 < mu := hlam.trans_le hle
  have h2 : 0 ≤ mu - lam := sub_nonneg.2 hle
  have e1 : 0 ≤ (mu + lam) * (U 0 0 ^ 2 + U 1 1 ^ 2 + U 2 2 ^ 2) := by positivity
  have e2 : 0 ≤ mu * (U 0 0 + U 1 1 + U 2 2) ^ 2 := by positivity
  have e3 : 0 ≤ lam * ((U 0 1 + U 1 0) ^ 2 + (U 0 2 + U 2 0) ^ 2 + (U 1 2 + U 2 1) ^ 2) := by positivity
  have e4 : 0 ≤ (mu - lam) * (U 0 1 ^ 2 + U 1 0 ^ 2 + U 2 0 ^ 2) := by positivity
  have f1 := (mul_eq_zero.1 (by linarith : (mu + lam) * (U 0 0 ^ 2 + U 1 1 ^ 2 + U 2 2 ^ 2) = 0)).resolve_left
    (by linarith)
  have f3 := (mul_eq_zero.1 (by linarith :
    lam * ((U 0 1 + U 1 0) ^ 2 + (U 0 2 + U 2 0) ^ 2 + (U 1 2 + U 2 1) ^ 2) = 0)).resolve_left hlam.ne'
  have q := fun x : K => sq_nonneg x
  have z : ∀ x : K, x ^ 2 = 0 → x = 0 := fun x hx => by simpa using hx
  have t00 := z _ (by linarith [q (U 0 0), q (U 1 1), q (U 2 2)] : U 0 0 ^ 2 = 0)
  have t11 := z _ (by linarith [q (U 0 0), q (U 1 1), q (U 2 2)] : U 1 1 ^ 2 = 0)
  have t22 := z _ (by linarith [q (U 0 0), q (U 1 1), q (U 2 2)] : U 2 2 ^ 2 = 0)
  have t01 := z _ (by linarith [q (U 0 1 + U 1 0), q (U 0 2 + U 2 0), q (U 1 2 + U 2 1)] :
    (U 0 1 + U 1 0) ^ 2 = 0)
  have t02 := z _ (by linarith [q (U 0 1 + U 1 0), q (U 0 2 + U 2 0), q (U 1 2 + U 2 1)] :
    (U 0 2 + U 2 0) ^ 2 = 0)
  have t12 := z _ (by linarith [q (U 0 1 + U 1 0), q (U 0 2 + U 2 0), q (U 1 2 + U 2 1)] :
    (U 1 2 + U 2 1) ^ 2 = 0)
  intro a ha b hb
  interval_cases a <;> interval_cases b <;> linarith

/-- C120, part: for `0 < λ ≤ μ` the elasticity matrix of a tetrahedral mesh is definite if the clamped
nodes hold all nodes. -/
theorem C120_definite_partial (hv : ValidElements 3 N elements) (hn : Nondegenerate3 elements nodes)
    (mu lam : K) (hlam : 0 < lam) (hle : lam ≤ mu) (D : ℕ → Prop)
    (hh : ∀ p < N, HeldInSpace elements (Clamped N D) p) :
    DefiniteOn (3 * N) D (Space.constitutive N (basicMatrices3 elements nodes).W mu lam) := by
  intro u hu h0
  obtain ⟨U, hU⟩ := exists_vectorGradient (N := N) (Space.allLocal hn) u
  rw [quad_eq_form, form_constitutive3 hv hn mu lam u u U U hU hU] at h0
  have hs : ∀ t < elements.length, ∀ a < 3, ∀ b < 3, U t a b + U t b a = 0 := by
    intro t ht
    have hz : Spec.volume (vertices nodes (elements.getD t [])) * hookeAsCoded mu lam (U t) (U t) = 0 :=
      sumElements_eq_zero elements
        (fun t e => Spec.volume (vertices nodes e) * hookeAsCoded mu lam (U t) (U t))
        (fun t ht => mul_nonneg (Space.allLocal hn _ (getD_mem ht)).pos.le
          (hookeAsCoded_nonneg hlam.le hle _)) h0 t ht
    exact hookeAsCoded_definite hlam hle _
      ((mul_eq_zero.1 hz).resolve_left (Space.allLocal hn _ (getD_mem ht)).pos.ne')
  have key : ∀ p, HeldInSpace elements (Clamped N D) p → ∀ a < 3, u (a * N + p) = 0 := by
    intro p hp
    induction hp with
    | fixed p h =>
      intro a ha
      exact hu _ (by have := h.1; interval_cases a <;> omega) (h.2 a ha)
    | tetrahedron e he i j k l hi hj hk hij hik hjk hl _ _ _ ih1 ih2 ih3 =>
      obtain ⟨t, ht, hte⟩ := List.getElem_of_mem he
      have hget : elements.getD t [] = e := by rw [List.getD_eq_getElem _ _ ht, hte]
      have hX : det3 (vertices nodes e) ≠ 0 := hn e he
      have hg : ∀ a < 3, IsGradient 3 (vertices nodes e) (valuesOn e (component N u a)) (U t a) := by
        intro a ha
        have := hU a ha t ht
        rwa [hget] at this
      intro a ha
      exact tetrahedron_zero hX hg (hs t ht) i j k hi hj hk hij hik hjk ih1 ih2 ih3 a ha l hl
  intro r hr
  have hN : 0 < N := by omega
  have hmod : r % N < N := Nat.mod_lt _ hN
  have := key (r % N) (hh _ hmod) (r / N) (by rw [Nat.div_lt_iff_lt_mul hN]; omega)
  rwa [Nat.div_add_mod'] at this

/-- C120, part: for `0 < λ ≤ μ` and clamped nodes which hold all nodes, the static system has exactly
one solution, with any prescribed values and any loads. -/
theorem C120_unique_partial (hv : ValidElements 3 N elements) (hn : Nondegenerate3 elements nodes)
    (mu lam : K) (hlam : 0 < lam) (hle : lam ≤ mu) (bs : List (CondBoundary K)) (D : ℕ → Prop)
    [DecidablePred D] (g f : ℕ → K) (hb : ValidBoundaries N bs) (hd : DirichletData N 3 bs D g)
    (hh : ∀ p < N, HeldInSpace elements (Clamped N D) p) :
    UniquelySolvable (3 * N) (applyDirichlet N 3 bs
      ⟨Space.constitutive N (basicMatrices3 elements nodes).W mu lam, f⟩) :=
  C74_definite N 3 bs _ D g hb hd (C120_definite_partial hv hn mu lam hlam hle D hh)

/-- C120, part: for `0 < λ ≤ μ` and clamped nodes which hold all nodes, the displacement returned for a
static problem in space takes the prescribed values and is the only one of least energy among the
displacements with these values. -/
theorem C120_static_partial {c : ProblemClass} {V : Type} (hv : ValidElements 3 N elements)
    (hn : Nondegenerate3 elements nodes) (e : Engine K) (hk : e.kind = .staticDisplacement)
    (hr : Registered c e.cls e.kind) (hN : e.ops.nodesCount = N) (hdim : e.ops.dimension = 3)
    (p : BodyProperties K) (d : DynamicsMatrices K)
    (hdyn : getDynamics 3 N (basicMatrices3 elements nodes) p = .ok d)
    (hA : d.elasticity = some e.ops.elasticity) (hlam : 0 < p.lambda) (hle : p.lambda ≤ p.mu)
    (D : ℕ → Prop) [DecidablePred D] (g : ℕ → K) (hb : ValidBoundaries N e.boundaries)
    (hd : DirichletData N 3 e.boundaries D g) (hh : ∀ p < N, HeldInSpace elements (Clamped N D) p)
    (inv : ℕ → (ℕ → ℕ → K) → ℕ → ℕ → K) (contactCount : ℕ) (dv : Bool) (dt : K) (solver : SolverState K)
    (hi : solverInit inv e.cls e.kind e.ops e.boundaries contactCount dv dt = .ok solver)
    (hs : SolvesHeld e (3 * N) solver) (initial : ℕ → ℕ → K) (products : List ℕ)
    (store : ProductStore K V) (s : State K) (sim : Simulation K V)
    (h : e.staticSolve initial products solver store = .ok (s, sim)) :
    let u := State.flatten e.grid s.displacement
    (∀ r < 3 * N, D r → u r = g r) ∧
    ∀ v : ℕ → K, (∀ r < 3 * N, D r → v r = g r) →
      energy (3 * N) ⟨e.ops.elasticity, e.ops.force 0⟩ u ≤
        energy (3 * N) ⟨e.ops.elasticity, e.ops.force 0⟩ v ∧
      (energy (3 * N) ⟨e.ops.elasticity, e.ops.force 0⟩ v ≤
        energy (3 * N) ⟨e.ops.elasticity, e.ops.force 0⟩ u → ∀ r < 3 * N, v r = u r) := by
  intro u
  have hE : e.ops.elasticity = Space.constitutive N (basicMatrices3 elements nodes).W p.mu p.lambda := by
    unfold getDynamics getDynamics3 at hdyn
    simp only [show (3 : ℕ) ≠ 2 by decide, if_false, if_true] at hdyn
    split at hdyn
    · cases hdyn
    · cases hdyn
      dsimp only at hA
      split at hA
      · exact (Option.some.inj hA).symm
      · cases hA
  have hst := C75_static e hk hr D g (by rw [hN]; exact hb) (by rw [hN, hdim]; exact hd) inv contactCount
    dv dt solver hi (by rw [hN, hdim]; exact hs) initial products store s sim h
  dsimp only at hst
  rw [hN, hdim] at hst
  have hse := C120_nonneg_partial (N := N) hv hn p.mu p.lambda hlam.le hle
  have hdef := C120_definite_partial hv hn p.mu p.lambda hlam hle D hh
  rw [← hE] at hse hdef
  have bal : BalancedField (3 * N) e.ops.elasticity D g (e.ops.force 0) u := ⟨hst.1, hst.2⟩
  refine ⟨hst.1, fun w hw => ⟨(C99_least_energy hse hst.1).1 bal w hw, fun hle' => ?_⟩⟩
  have bal' : BalancedField (3 * N) e.ops.elasticity D g (e.ops.force 0) w :=
    (C99_least_energy hse hw).2 fun x hx => hle'.trans ((C99_least_energy hse hst.1).1 bal x hx)
  exact definite_unique hdef (fun r hr hD => (hw r hr hD).trans (hst.1 r hr hD).symm) bal'.balance bal.balance

/-! ### Where the code departs from Hooke's law -/

/-- If some field which vanishes on the supports has negative energy, there is no least energy. -/
theorem unbounded_of_negative {n : ℕ} {A : ℕ → ℕ → K} (hA : ∀ r < n, ∀ s < n, A r s = A s r) (D : ℕ → Prop)
    (w : ℕ → K) (hw : ∀ r < n, D r → w r = 0) (hneg : quad n A w < 0) (g f : ℕ → K) :
    UnboundedBelow n A D g f := by
  intro bound
  obtain ⟨l, hl⟩ : ∃ l, l = ∑ r ∈ Finset.range n, w r * (∑ s ∈ Finset.range n, A r s * g s - f r) := ⟨_, rfl⟩
  obtain ⟨E, hE⟩ : ∃ E, E = energy n ⟨A, f⟩ g := ⟨_, rfl⟩
  obtain ⟨q, hq⟩ : ∃ q, q = quad n A w := ⟨_, rfl⟩
  have hexp : ∀ t : K, energy n ⟨A, f⟩ (fun i => g i + t * w i) = E + t * l + t ^ 2 * (q / 2) := by
    intro t
    have h1 := energy_expand n ⟨A, f⟩ hA g fun i => t * w i
    have h2 : ∑ r ∈ Finset.range n, t * w r * (∑ s ∈ Finset.range n, A r s * g s - f r) = t * l := by
      rw [hl, Finset.mul_sum]
      exact Finset.sum_congr rfl fun r _ => by ring
    have h3 : quad n A (fun i => t * w i) = t ^ 2 * q := by
      rw [hq]
      unfold quad
      rw [Finset.mul_sum]
      refine Finset.sum_congr rfl fun r _ => ?_
      rw [show (∑ s ∈ Finset.range n, A r s * (t * w s)) = t * ∑ s ∈ Finset.range n, A r s * w s by
        rw [Finset.mul_sum]; exact Finset.sum_congr rfl fun s _ => by ring]
      ring
    rw [h1]
    dsimp only
    rw [h2, h3, hE]
    ring
  rw [← hq] at hneg
  refine ⟨fun i => g i + (1 + (|l| + |E - bound|) / (-q / 2)) * w i, fun r hr hD => by
    beta_reduce; rw [hw r hr hD]; ring, ?_⟩
  rw [hexp]
  have hp : 0 < -q / 2 := by linarith
  obtain ⟨c, hc⟩ : ∃ c, c = (|l| + |E - bound|) / (-q / 2) := ⟨_, rfl⟩
  rw [← hc]
  have hc1 : c * (-q / 2) = |l| + |E - bound| := by rw [hc, div_mul_cancel₀ _ hp.ne']
  have hc0 : 0 ≤ c := by rw [hc]; positivity
  have h1 := le_abs_self l
  have h2 := le_abs_self (E - bound)
  have h3 := abs_nonneg (E - bound)
  have h4 : 0 ≤ c * |E - bound| := mul_nonneg hc0 h3
  have h5 : (1 + c) * l ≤ (1 + c) * |l| := mul_le_mul_of_nonneg_left h1 (by linarith)
  have h6 : (1 + c) ^ 2 * (q / 2) = -((1 + c) * (-q / 2) + (1 + c) * (|l| + |E - bound|)) := by
    rw [← hc1]; ring
  have h7 : 0 < (1 + c) * (-q / 2) := mul_pos (by linarith) hp
  rw [h6]
  nlinarith

/-- The energy of a field with the same gradient everywhere. -/
theorem energy_uniform (hv : ValidElements 3 N elements) (hn : Nondegenerate3 elements nodes)
    (mu lam : K) (u : ℕ → K) (S : ℕ → ℕ → K)
    (hu : ∀ a < 3, ∀ p < N, u (a * N + p) = (fun _ => (0 : K)) a + ∑ k ∈ Finset.range 3, S a k * nodes p k) :
    quad (3 * N) (Space.constitutive N (basicMatrices3 elements nodes).W mu lam) u =
      hookeAsCoded mu lam S S * sumElements elements fun _ e => Spec.volume (vertices nodes e) := by
  rw [quad_eq_form, form_constitutive3 hv hn mu lam u u _ _ (rigid_gradient hv hu) (rigid_gradient hv hu),
    ← sumElements_mul]
  exact sumElements_congr fun t _ => mul_comm _ _

/-- C120 fails: shearing the horizontal layers of a body along the first axis takes `λ / 2` times the
volume, with `λ = 0` nothing at all although the ground does not move, whereas lifting it along the first
axis takes `μ / 2` times the volume; Hooke's law gives `μ / 2` for both. -/
theorem C120_shear_wrong (hv : ValidElements 3 N elements) (hn : Nondegenerate3 elements nodes)
    (mu lam : K) :
    let A := Space.constitutive N (basicMatrices3 elements nodes).W mu lam
    let volume := sumElements elements fun _ e => Spec.volume (vertices nodes e)
    quad (3 * N) A (fun r => if r / N = 0 then nodes (r % N) 2 else 0) = lam * volume ∧
    quad (3 * N) A (fun r => if r / N = 2 then nodes (r % N) 0 else 0) = mu * volume ∧
    hooke 3 mu lam (fun a b => if a = 0 ∧ b = 2 then 1 else 0) (fun a b => if a = 0 ∧ b = 2 then 1 else 0) = mu ∧
    hooke 3 mu lam (fun a b => if a = 2 ∧ b = 0 then 1 else 0) (fun a b => if a = 2 ∧ b = 0 then 1 else 0) = mu := by
  intro A volume
  refine ⟨?_, ?_, ?_, ?_⟩
  · rw [energy_uniform hv hn mu lam _ (fun a b => if a = 0 ∧ b = 2 then 1 else 0)]
    · simp [hookeAsCoded, volume]
    · intro a ha p hp
      beta_reduce
      rw [block_div _ hp, block_mod _ hp]
      interval_cases a <;> simp
  · rw [energy_uniform hv hn mu lam _ (fun a b => if a = 2 ∧ b = 0 then 1 else 0)]
    · simp [hookeAsCoded, volume]
    · intro a ha p hp
      beta_reduce
      rw [block_div _ hp, block_mod _ hp]
      interval_cases a <;> simp
  · simp only [hooke, Finset.sum_range_succ, Finset.sum_range_zero]
    norm_num
    ring
  · simp only [hooke, Finset.sum_range_succ, Finset.sum_range_zero]
    norm_num
    ring

/-- A column of two prisms, of the heights 1 and `H`, each cut into three tetrahedra. -/
def columnMesh : List (List ℕ) :=
  [[0, 1, 2, 3], [1, 2, 3, 4], [2, 3, 4, 5], [3, 4, 5, 6], [4, 5, 6, 7], [5, 6, 7, 8]]

/-- Its nodes, three on each level. -/
def columnNodes (H : K) : ℕ → ℕ → K := fun p k =>
  if k = 0 then (if p % 3 = 1 then 1 else 0)
  else if k = 1 then (if p % 3 = 2 then 1 else 0)
  else if k = 2 then (if p < 3 then 0 else if p < 6 then 1 else 1 + H) else 0

/-- The degrees of freedom of its lowest three nodes. -/
def columnBase : ℕ → Prop := fun r => r < 3 * 9 ∧ r % 9 < 3

instance : DecidablePred columnBase := fun r => inferInstanceAs (Decidable (r < 3 * 9 ∧ r % 9 < 3))

/-- Both upper levels are turned, the lowest stays. -/
def columnTurn : ℕ → K := fun r => [0, 0, 0, 0, 0, -1, 0, 0, -1, 0, 0, 0, 0, 1, 0, 0, 1, 0].getD r 0

/-- The gradient of this displacement. -/
def columnGradient : ℕ → ℕ → ℕ → K := fun t a k =>
  if t = 0 then 0
  else if t = 1 then (if a = 1 then 1 else 0)
  else if t = 2 then (if a = 0 ∧ (k = 1 ∨ k = 2) then -1 else if a = 1 ∧ k = 0 then 1 else 0)
  else if a = 0 ∧ k = 1 then -1 else if a = 1 ∧ k = 0 then 1 else 0

omit [LinearOrder K] [IsStrictOrderedRing K] in
theorem column_gradient (H : K) : VectorGradient 3 9 columnMesh (columnNodes H) columnTurn columnGradient := by
  intro a ha t ht
  have ht : t < 6 := ht
  refine ⟨if t = 1 ∧ a = 1 then -1 else if t = 2 ∧ a = 0 then 1 else 0, fun i hi => ?_⟩
  simp only [Finset.sum_range_succ, Finset.sum_range_zero, zero_add, valuesOn, component, vertices]
  interval_cases t <;> interval_cases a <;> interval_cases i <;>
    simp [columnMesh, columnNodes, columnTurn, columnGradient]

theorem column_volume (H : K) (hH : 0 < H) : ∀ t < 6,
    Spec.volume (vertices (columnNodes H) (columnMesh.getD t [])) = if t < 3 then 1 / 6 else H / 6 := by
  intro t ht
  unfold Spec.volume det3 vertices
  interval_cases t <;> simp [columnMesh, columnNodes, abs_of_pos hH]

theorem column_nondegenerate (H : K) (hH : 0 < H) : Nondegenerate3 columnMesh (columnNodes H) := by
  intro e he h0
  obtain ⟨t, ht, rfl⟩ := List.getElem_of_mem he
  have := column_volume H hH t ht
  rw [List.getD_eq_getElem _ _ ht] at this
  unfold Spec.volume at this
  rw [h0] at this
  split at this
  · norm_num at this
  · have h6 : (0 : K) < H / 6 := by positivity
    rw [abs_zero, zero_div] at this
    exact h6.ne this

theorem column_valid : ValidElements 3 9 columnMesh := by
  unfold ValidElements columnMesh; decide

/-- The base of the column holds all its nodes. -/
theorem column_held : ∀ p < 9, HeldInSpace columnMesh (Clamped 9 columnBase) p := by
  have base : ∀ p < 3, HeldInSpace columnMesh (Clamped 9 columnBase) p := fun p hp =>
    .fixed p ⟨by omega, fun a _ => by unfold columnBase; omega⟩
  have step : ∀ p < 6, HeldInSpace columnMesh (Clamped 9 columnBase) p →
      HeldInSpace columnMesh (Clamped 9 columnBase) (p + 1) →
      HeldInSpace columnMesh (Clamped 9 columnBase) (p + 2) →
      HeldInSpace columnMesh (Clamped 9 columnBase) (p + 3) := by
    intro p hp h0 h1 h2
    have hm : [p, p + 1, p + 2, p + 3] ∈ columnMesh := by interval_cases p <;> decide
    exact .tetrahedron _ hm 0 1 2 3 (by omega) (by omega) (by omega) (by omega) (by omega) (by omega)
      (by omega) h0 h1 h2
  have h3 := step 0 (by omega) (base 0 (by omega)) (base 1 (by omega)) (base 2 (by omega))
  have h4 := step 1 (by omega) (base 1 (by omega)) (base 2 (by omega)) h3
  have h5 := step 2 (by omega) (base 2 (by omega)) h3 h4
  have h6 := step 3 (by omega) h3 h4 h5
  have h7 := step 4 (by omega) h4 h5 h6
  have h8 := step 5 (by omega) h5 h6 h7
  intro p hp
  interval_cases p <;> first | assumption | exact base _ (by omega)

/-- C120 fails: for `λ > μ` a column clamped at its base, if it is high enough, gains energy when its
upper part is turned, so that there is no displacement of least energy for any loads and prescribed
values. -/
theorem C120_column_wrong (mu lam H : K) (hH : 0 < H)
    (hhigh : 5 * mu + lam < 6 * (lam - mu) * H) :
    ValidElements 3 9 columnMesh ∧ Nondegenerate3 columnMesh (columnNodes H) ∧
    (∀ p < 9, HeldInSpace columnMesh (Clamped 9 columnBase) p) ∧
    ∀ g f, UnboundedBelow (3 * 9)
      (Space.constitutive 9 (basicMatrices3 columnMesh (columnNodes H)).W mu lam) columnBase g f := by
  have hn := column_nondegenerate H hH
  refine ⟨column_valid, hn, column_held, fun g f => ?_⟩
  refine unbounded_of_negative (C27_symmetric_translation_partial column_valid hn mu lam).1 columnBase
    columnTurn ?_ ?_ g f
  · intro r hr hD
    unfold columnBase at hD
    unfold columnTurn
    interval_cases r <;> first | rfl | (exfalso; revert hD; decide)
  · rw [quad_eq_form, form_constitutive3 column_valid hn mu lam _ _ _ _ (column_gradient H) (column_gradient H)]
    have h : (sumElements columnMesh fun t e => Spec.volume (vertices (columnNodes H) e) *
        hookeAsCoded mu lam (columnGradient t) (columnGradient t)) =
        (5 * mu + lam) / 6 + (mu - lam) * H := by
      unfold sumElements
      rw [show columnMesh.length = 6 from rfl]
      rw [Finset.sum_congr rfl fun t ht => by
        beta_reduce; rw [column_volume H hH t (Finset.mem_range.1 ht)]]
      simp only [Finset.sum_range_succ, Finset.sum_range_zero, hookeAsCoded, columnGradient]
      norm_num
      ring
    rw [h]
    linarith

/-- C120 fails: for every pair of coefficients with `λ > μ` there is such a column. -/
theorem C120_unstable_wrong (mu lam : K) (hml : mu < lam) :
    ∃ H : K, Nondegenerate3 columnMesh (columnNodes H) ∧ ∀ g f, UnboundedBelow (3 * 9)
      (Space.constitutive 9 (basicMatrices3 columnMesh (columnNodes H)).W mu lam) columnBase g f := by
  have h0 : 0 < 6 * (lam - mu) := by linarith
  have h1 : 0 ≤ |5 * mu + lam| / (6 * (lam - mu)) := by positivity
  obtain ⟨-, h2, -, h3⟩ := C120_column_wrong mu lam (1 + |5 * mu + lam| / (6 * (lam - mu)))
    (by linarith) (by
      rw [mul_add, mul_div_cancel₀ _ h0.ne']
      linarith [le_abs_self (5 * mu + lam)])
  exact ⟨_, h2, h3⟩

end

/-- A body with `λ = 1` and `μ = 3` in a static problem with its base clamped. -/
example : DefiniteOn (3 * 9) columnBase
    (Space.constitutive 9 (basicMatrices3 columnMesh (columnNodes (2 : ℚ))).W 3 1) :=
  C120_definite_partial column_valid (column_nondegenerate 2 (by norm_num)) 3 1 (by norm_num) (by norm_num)
    columnBase column_held

/-- The boundary of the column: its base is clamped. -/
def columnBoundaries : List (CondBoundary ℚ) := [⟨.list [0, 1, 2], fun _ => 0⟩]

theorem column_data : ValidBoundaries 9 columnBoundaries ∧
    DirichletData 9 3 columnBoundaries columnBase fun _ => 0 := by
  have hmod : ∀ j node : ℕ, ([0, 1, 2] : List ℕ)[j]? = some node → node = j ∧ j < 3 := by
    intro j node h
    obtain ⟨hj, h⟩ := List.getElem?_eq_some_iff.1 h
    simp only [List.length_cons, List.length_nil] at hj
    interval_cases j <;> simp at h <;> omega
  refine ⟨?_, ⟨fun r => ⟨?_, ?_⟩, ?_⟩⟩
  · intro b hb
    simp only [columnBoundaries, List.mem_singleton] at hb
    subst hb
    refine ⟨?_, ?_⟩
    · intro v hv
      simp [nodesOf] at hv
      omega
    · intro i h; simp at h; subst h; simp
  · rintro ⟨h1, h2⟩
    refine ⟨0, _, List.mem_singleton.2 rfl, r / 9, by omega, r % 9, r % 9, ?_, by omega, rfl⟩
    have : r % 9 = 0 ∨ r % 9 = 1 ∨ r % 9 = 2 := by omega
    rcases this with h | h | h <;> rw [h] <;> rfl
  · rintro ⟨v, b, hb, d, hd, j, node, hj, hx, -⟩
    simp only [columnBoundaries, List.mem_singleton] at hb
    subst hb
    have := hmod j node hj
    unfold columnBase
    omega
  · rintro x v ⟨b, hb, d, hd, j, node, hj, hx, hv⟩
    simp only [columnBoundaries, List.mem_singleton] at hb
    subst hb
    exact hv

/-- The static system of the column. -/
example : UniquelySolvable (3 * 9) (applyDirichlet 9 3 columnBoundaries
    ⟨Space.constitutive 9 (basicMatrices3 columnMesh (columnNodes (2 : ℚ))).W 3 1, fun _ => 1⟩) :=
  C120_unique_partial column_valid (column_nondegenerate 2 (by norm_num)) 3 1 (by norm_num) (by norm_num)
    columnBoundaries columnBase (fun _ => 0) _ column_data.1 column_data.2 column_held

/-- The properties of an elastic body with `μ = 3` and `λ = 1`. -/
def columnProperties : BodyProperties ℚ :=
  { cls := .elastic, massDensity := 1, mu := 3, lambda := 1, theta := 0, zeta := 0, propagation := 0
    thermalExpansion := fun _ _ => 0, thermalConductivity := fun _ _ => 0
    piezoelectricity := fun _ _ _ => 0, permittivity := fun _ _ => 0, relaxation := fun _ _ _ _ => 0 }

/-- A static problem for the column under a load, solved exactly. -/
noncomputable def columnEngine : Engine ℚ where
  grid := { nodesCount := 9, dimension := 3, nodes := columnNodes 2 }
  cls := .staticGlobal
  kind := .staticDisplacement
  ops := { exampleOps with
    nodesCount := 9
    dimension := 3
    elasticity := Space.constitutive 9 (basicMatrices3 columnMesh (columnNodes (2 : ℚ))).W 3 1
    force := fun _ r => r }
  boundaries := columnBoundaries
  solve := fun s _ => exactSolution 27 s.system

/-- The hypotheses of `C120_static_partial` are met. -/
example : ∃ solver, solverInit (fun _ A => A) columnEngine.cls columnEngine.kind columnEngine.ops
      columnEngine.boundaries 0 false 1 = .ok solver ∧
    ∀ (V : Type) (initial : ℕ → ℕ → ℚ) (products : List ℕ) (store : ProductStore ℚ V) (s : State ℚ)
      (sim : Simulation ℚ V), columnEngine.staticSolve initial products solver store = .ok (s, sim) →
      (∀ r < 3 * 9, columnBase r → State.flatten columnEngine.grid s.displacement r = 0) ∧
      ∀ v : ℕ → ℚ, (∀ r < 3 * 9, columnBase r → v r = 0) →
        energy (3 * 9) ⟨columnEngine.ops.elasticity, columnEngine.ops.force 0⟩
          (State.flatten columnEngine.grid s.displacement) ≤
        energy (3 * 9) ⟨columnEngine.ops.elasticity, columnEngine.ops.force 0⟩ v := by
  have hn := column_nondegenerate (2 : ℚ) (by norm_num)
  have hu := C120_unique_partial column_valid hn 3 1 (by norm_num) (by norm_num) columnBoundaries columnBase
    (fun _ => 0) (fun r => (r : ℚ)) column_data.1 column_data.2 column_held
  refine ⟨_, rfl, fun V initial products store s sim h => ?_⟩
  have := C120_static_partial (c := .StaticDisplacementProblem) column_valid hn columnEngine rfl
    ⟨⟨.static, by decide +kernel, by decide +kernel⟩, Or.inl (by decide +kernel)⟩ rfl rfl columnProperties _
    rfl rfl (by decide) (by decide) columnBase (fun _ => 0) column_data.1 column_data.2 column_held
    (fun _ A => A) 0 false 1 _ rfl (by
      intro S guess h1 h2
      change Solves 27 S.system (exactSolution 27 S.system)
      rw [h1]
      exact exactSolution_solves 27 _ hu) initial products store s sim h
  exact ⟨this.1, fun v hv => (this.2 v hv).1⟩

/-- A column of height 3 with `μ = 1` and `λ = 2`. -/
example (g f : ℕ → ℚ) : UnboundedBelow (3 * 9)
    (Space.constitutive 9 (basicMatrices3 columnMesh (columnNodes (2 : ℚ))).W 1 2) columnBase g f :=
  (C120_column_wrong 1 2 2 (by norm_num) (by norm_num)).2.2.2 g f

end Conmech
