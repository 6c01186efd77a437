import Verif.Props.StiffRuns
import Verif.Props.SolverIndependence
/-!
C114, examples: a square above the ground, and a square next to a wall.
-/
namespace Conmech
open Spec

theorem square_stores : StoresEnergy (2 * 4) heavySquareOps.elasticity :=
  (C71_operators2 heldSquare_mesh.1 heldSquare_mesh.2 1 4 5 2 3 1 (by norm_num) (by norm_num) (by norm_num)
    (by norm_num) (by norm_num)).2.1

theorem square_definite : DefiniteOn (2 * 4) (fun r => r < 2 * 4 ∧ 2 ≤ r % 4) heavySquareOps.elasticity :=
  C74_elastic2 heldSquare_mesh.1 heldSquare_mesh.2 4 5 (by norm_num) (by norm_num) _ heldSquare_held

theorem lowerSide_length : ∀ s ∈ lowerSide, 0 < surfaceLength Real.sqrt heldSquareNodes s.edge := by
  intro s hs
  simp only [lowerSide, List.mem_singleton] at hs
  subst hs
  simp [surfaceLength, heldSquareNodes]

theorem square_fits (C : ℕ) (hC : C = 2) : MethodFits 4 C 2 8 (fun r => r < 2 * 4 ∧ 2 ≤ r % 4) (fun _ => 0) lowerSide .staticGlobal ∧
    MethodFits 4 C 2 8 (fun r => r < 2 * 4 ∧ 2 ≤ r % 4) (fun _ => 0) lowerSide .staticSchur := by
  subst hC
  refine ⟨.global rfl fun s hs node hnode => ?_, .condensed (by norm_num) (fun s hs node hnode => ?_) fun _ _ _ _ _ _ _ => rfl⟩
  · obtain ⟨h1, h2⟩ := lowerSide_apart s hs node hnode
    exact ⟨by omega, h2⟩
  · exact Or.inl (lowerSide_apart s hs node hnode)

/-- The square with friction on stiffer and stiffer ground: all hypotheses of `C114_rigid_partial` are met, and the runs
return. -/
example : (∀ α, ∃ u, LawRun heavySquareOps heldSquareBoundaries 2 (fun r => r < 2 * 4 ∧ 2 ≤ r % 4) (fun _ => 0)
      heldSquareNodes lowerSide (bostPotential α 0) (fun t => 1 * vectorLength t) u) ∧
    (∃ u, RigidRun heavySquareOps heldSquareBoundaries 2 (fun r => r < 2 * 4 ∧ 2 ≤ r % 4) (fun _ => 0)
      heldSquareNodes lowerSide (fun t => 1 * vectorLength t) u) ∧
    ∃ K, 0 ≤ K ∧ ∀ α, 0 < α → ∀ u u', LawRun heavySquareOps heldSquareBoundaries 2 (fun r => r < 2 * 4 ∧ 2 ≤ r % 4)
        (fun _ => 0) heldSquareNodes lowerSide (bostPotential α 0) (fun t => 1 * vectorLength t) u →
      RigidRun heavySquareOps heldSquareBoundaries 2 (fun r => r < 2 * 4 ∧ 2 ≤ r % 4) (fun _ => 0)
        heldSquareNodes lowerSide (fun t => 1 * vectorLength t) u' →
      (∀ node < 2, -(K / α) ≤ u (4 + node) ∧ 0 ≤ u' (4 + node)) ∧ ∀ r < 8, (u r - u' r) ^ 2 ≤ K / α := by
  have hret := fun φ => C114_returns (ops := heavySquareOps) rfl heldSquareBoundaries heldSquareNodes (C := 2) (by norm_num)
    (by change 2 ≤ 4; norm_num) (square_fits 2 rfl).2 φ fun t => 1 * vectorLength t
  obtain ⟨f1, f2, f3⟩ := C114_foundation 0
  obtain ⟨K, hK, h⟩ := C114_rigid_partial (ops := heavySquareOps) rfl heldSquare_boundaries.1 heldSquare_boundaries.2 square_stores
    square_definite lowerSide_length
    (by
      intro s hs
      simp only [lowerSide, List.mem_singleton] at hs
      subst hs
      simp)
    (C := 2) (by norm_num) (by change 2 ≤ 4; norm_num)
    (fun node hnode i hi => by change ¬ (i * 4 + node < 2 * 4 ∧ 2 ≤ (i * 4 + node) % 4); omega)
    (fun node hnode => ⟨_, List.mem_singleton.2 rfl, by
      simp only [List.mem_cons, List.not_mem_nil, or_false]; omega⟩)
    (fun s hs node hnode => Or.inl (lowerSide_apart s hs node hnode)) (fun _ _ _ _ _ _ _ => rfl) f1 f2
    (C114_friction 2 lowerSide 1 (by norm_num))
  refine ⟨fun α => (hret _).1, (hret fun _ => 0).2, K, hK, fun α hα u u' hu hu' => ?_⟩
  rw [f3 α] at hu
  obtain ⟨h1, -, h2⟩ := h α hα u u' hu hu'
  exact ⟨h1, h2⟩

/-- The square above the ground: with a large gap the method "constrained" does not find the limit. -/
example : ∃ (b δ : ℝ) (node : ℕ) (α₀ : ℝ), node < 2 ∧ 0 < δ ∧ 0 < α₀ ∧ ∀ α, α₀ ≤ α → ∀ u u',
    LawRun heavySquareOps heldSquareBoundaries 2 (fun r => r < 2 * 4 ∧ 2 ≤ r % 4) (fun _ => 0)
      heldSquareNodes lowerSide (bostPotential α b) (fun _ => 0) u →
    RigidRun heavySquareOps heldSquareBoundaries 2 (fun r => r < 2 * 4 ∧ 2 ≤ r % 4) (fun _ => 0)
      heldSquareNodes lowerSide (fun _ => 0) u' → δ ≤ u' (4 + node) - u (4 + node) := by
  set D : ℕ → Prop := fun r => r < 2 * 4 ∧ 2 ≤ r % 4 with hD
  obtain ⟨x, hx, -⟩ := C74_definite 4 2 heldSquareBoundaries ⟨heavySquareOps.elasticity, heavySquareOps.force 0⟩ D _
    heldSquare_boundaries.1 heldSquare_boundaries.2 square_definite
  have hb := (C12_elimination_equivalent 4 2 heldSquareBoundaries ⟨heavySquareOps.elasticity, heavySquareOps.force 0⟩ D _
    heldSquare_boundaries.1 heldSquare_boundaries.2 x).1 hx
  have hbal : BalancedField (2 * 4) heavySquareOps.elasticity D (fun _ => 0) (heavySquareOps.force 0) x := ⟨hb.1, hb.2⟩
  have hleast := (C99_least_energy square_stores hbal.values).1 hbal
  have hpos : 0 < quad (2 * 4) heavySquareOps.elasticity x := by
    rcases (square_stores.nonneg x).lt_or_eq with h | h
    · exact h
    · exfalso
      have h0 := square_definite x hbal.values h.symm
      have h1 := hbal.balance 4 (by norm_num) (by simp [hD])
      rw [act, Finset.sum_eq_zero fun s hs => by rw [h0 s (Finset.mem_range.1 hs), mul_zero]] at h1
      simp [heavySquareOps] at h1
  have hwork : quad (2 * 4) heavySquareOps.elasticity x = -(x 4 + x 5) := by
    have : ∀ r < 2 * 4, x r * act (2 * 4) heavySquareOps.elasticity x r = x r * heavySquareOps.force 0 r := fun r hr => by
      by_cases h : D r
      · rw [hbal.values r hr h]; ring
      · rw [hbal.balance r hr h]
    have h2 : quad (2 * 4) heavySquareOps.elasticity x = ∑ r ∈ Finset.range (2 * 4), x r * heavySquareOps.force 0 r := by
      unfold quad
      refine Finset.sum_congr rfl fun r hr => ?_
      rw [← this r (Finset.mem_range.1 hr)]
      rfl
    have h6 := hbal.values 6 (by norm_num) (by simp [hD])
    have h7 := hbal.values 7 (by norm_num) (by simp [hD])
    rw [h2]
    simp [Finset.sum_range_succ, heavySquareOps, h6, h7]
    ring
  obtain ⟨node, hnode, hbelow⟩ : ∃ node < 2, x (4 + node) < 0 := by
    by_contra h
    push Not at h
    have h1 := h 0 (by norm_num)
    have h2 := h 1 (by norm_num)
    linarith
  set b := |x 4| + |x 5| with hbdef
  have hν : ∀ s ∈ lowerSide, ∀ (y : ℕ → ℝ) node, normalComponent 2 (atNode 4 y node) s.normal = -y (4 + node) := by
    intro s hs y node
    simp only [lowerSide, List.mem_singleton] at hs
    subst hs
    simp [normalComponent, atNode]
  have h₀ : LeastUnder (2 * 4) D (fun _ => 0) ⟨heavySquareOps.elasticity, heavySquareOps.force 0⟩
      (obstacleCost 2 4 heldSquareNodes lowerSide (fun _ => 0) fun _ => 0) (Outside 2 4 lowerSide b) x := by
    have hJ : ∀ y, obstacleCost 2 4 heldSquareNodes lowerSide (fun _ => 0) (fun _ => 0) y = 0 := fun y => by
      simp [obstacleCost, quadrature]
    refine ⟨hbal.values, fun s hs node hnode => ?_, fun y hy _ => ?_⟩
    · rw [hν s hs]
      have := (lowerSide_apart s hs node hnode).1
      have h1 := neg_abs_le (x 4)
      have h2 := neg_abs_le (x 5)
      have h3 := abs_nonneg (x 4)
      have h4 := abs_nonneg (x 5)
      interval_cases node
      · simp only [Nat.add_zero]; linarith
      · linarith
    · rw [hJ, hJ, add_zero, add_zero]
      exact hleast y hy
  obtain ⟨f1, f2, f3⟩ := C114_foundation b
  obtain ⟨α₀, hα₀, h⟩ := C114_constraint_wrong (ops := heavySquareOps) rfl heldSquare_boundaries.1 heldSquare_boundaries.2
    square_stores square_definite lowerSide_length (C := 2) (by norm_num) (by change 2 ≤ 4; norm_num)
    (fun node hnode i hi => by change ¬ (i * 4 + node < 2 * 4 ∧ 2 ≤ (i * 4 + node) % 4); omega)
    (fun s hs node hnode => by
      have := (lowerSide_apart s hs node hnode).1
      change node < 4
      omega) f1 f2 (no_friction 2 lowerSide) (w := fun r => if D r then 0 else 1)
    ⟨fun r _ hr => if_pos hr, fun s hs node hnode => Or.inr (by
      obtain ⟨h1, h2⟩ := lowerSide_apart s hs node hnode
      have h3 := h2 1 (by norm_num)
      rw [Nat.one_mul] at h3
      change normalComponent 2 (atNode 4 _ node) s.normal ≤ -1
      rw [hν s hs, if_neg (show ¬ D (4 + node) from h3)])⟩ h₀ hnode hbelow
  refine ⟨b, -x (4 + node) / 2, node, α₀, hnode, by linarith, hα₀, fun α hα u u' hu hu' => ?_⟩
  rw [f3 α] at hu
  exact h α hα u u' hu hu'

/-! ### A square next to a wall -/

/-- Nodes given by a list are held at the value `c`. -/
theorem list_boundary (N : ℕ) (c : ℝ) (l : List ℕ) (hl : ∀ v ∈ l, v < N) (hne : l ≠ []) (D : ℕ → Prop)
    (hD : ∀ r, D r ↔ r ∈ l) : ValidBoundaries N [(⟨.list l, fun _ => c⟩ : CondBoundary ℝ)] ∧
    DirichletData N 1 [(⟨.list l, fun _ => c⟩ : CondBoundary ℝ)] D (fun _ => c) := by
  refine ⟨?_, ⟨fun r => ⟨fun h => ?_, ?_⟩, ?_⟩⟩
  · intro b hb
    rw [List.mem_singleton.1 hb]
    exact ⟨hl, fun i h => by cases h; exact hne⟩
  · obtain ⟨j, hj⟩ := List.mem_iff_getElem?.1 ((hD r).1 h)
    exact ⟨c, _, List.mem_singleton.2 rfl, 0, by norm_num, j, r, hj, by omega, rfl⟩
  · rintro ⟨v, b, hb, k, hk, j, n, hn, hr, hv⟩
    rw [List.mem_singleton.1 hb] at hn
    have : r = n := by
      interval_cases k
      omega
    rw [hD, this]
    exact List.mem_iff_getElem?.2 ⟨j, hn⟩
  · rintro x v ⟨b, hb, k, hk, j, n, hn, hr, hv⟩
    rw [List.mem_singleton.1 hb] at hv
    exact hv

noncomputable def warmSquareOps : Operators ℝ :=
  { heldSquareOps with
    poisson := poissonMatrix 2 (basicMatrices2 heldSquareElements heldSquareNodes).W 1
    bodyTemperature := fun _ _ => -4 }

/-- The square of which the upper side has the temperature 5, with a wall of the same temperature below: all
hypotheses of `C114_temperature` are met, and the runs return. -/
example : (∀ α, ∃ T, ExchangeRun warmSquareOps [⟨.list [2, 3], fun _ => 5⟩] 2 (fun r => r = 2 ∨ r = 3) (fun _ => 5)
      heldSquareNodes lowerSide (tarziaPotential α 5) T) ∧
    (∃ T, WallRun warmSquareOps [⟨.list [0, 1, 2, 3], fun _ => 5⟩] T) ∧
    ∃ K, 0 ≤ K ∧ ∀ α, 0 < α → ∀ T T', ExchangeRun warmSquareOps [⟨.list [2, 3], fun _ => 5⟩] 2
        (fun r => r = 2 ∨ r = 3) (fun _ => 5) heldSquareNodes lowerSide (tarziaPotential α 5) T →
      WallRun warmSquareOps [⟨.list [0, 1, 2, 3], fun _ => 5⟩] T' → ∀ r < 4, |T r - T' r| ≤ K / α := by
  have hside : ∀ s ∈ lowerSide, ∀ node ∈ s.edge, node = 0 ∨ node = 1 := fun s hs node hnode => by
    have := (lowerSide_apart s hs node hnode).1
    omega
  have hsuit : MethodFits 4 2 1 4 (fun r => r = 2 ∨ r = 3) (fun _ => (5 : ℝ)) lowerSide .staticSchur :=
    .condensed (by norm_num) (fun s hs node hnode => Or.inl (by
      have := hside s hs node hnode
      exact ⟨by omega, fun i hi => by interval_cases i; omega⟩)) fun s hs node hnode i hi h => by
        have := hside s hs node hnode
        interval_cases i
        omega
  have hret := fun φ => C114_temperature_returns warmSquareOps [⟨.list [2, 3], fun _ => 5⟩]
    [⟨.list [0, 1, 2, 3], fun _ => 5⟩] heldSquareNodes hsuit φ
  obtain ⟨f1, f2, f3⟩ := C114_heat_exchange 5
  have hb := list_boundary 4 5 [2, 3] (by decide) (by decide) (fun r => r = 2 ∨ r = 3) (by simp)
  have hb' := list_boundary 4 5 [0, 1, 2, 3] (by decide) (by decide)
    (fun r => (r = 2 ∨ r = 3) ∨ ∃ s ∈ lowerSide, r ∈ s.edge) (by
      intro r
      simp [lowerSide]
      omega)
  have hj : ∀ p < 4, Joined 3 heldSquareElements (fun q => q < 4 ∧ (q = 2 ∨ q = 3)) p := by
    have h2 : Joined 3 heldSquareElements (fun q => q < 4 ∧ (q = 2 ∨ q = 3)) 2 := .fixed _ (by norm_num)
    have h3 : Joined 3 heldSquareElements (fun q => q < 4 ∧ (q = 2 ∨ q = 3)) 3 := .fixed _ (by norm_num)
    have h0 : Joined 3 heldSquareElements (fun q => q < 4 ∧ (q = 2 ∨ q = 3)) 0 :=
      .element [0, 1, 2] (by simp [heldSquareElements]) 2 0 (by norm_num) (by norm_num) h2
    have h1 : Joined 3 heldSquareElements (fun q => q < 4 ∧ (q = 2 ∨ q = 3)) 1 :=
      .element [0, 1, 2] (by simp [heldSquareElements]) 2 1 (by norm_num) (by norm_num) h2
    intro p hp
    interval_cases p <;> assumption
  obtain ⟨K, hK, h⟩ := C114_temperature (ops := warmSquareOps) (bs' := [⟨.list [0, 1, 2, 3], fun _ => 5⟩])
    (nodes := heldSquareNodes) (surfaces := lowerSide) hb.1 hb.2
    (C71_operators2 heldSquare_mesh.1 heldSquare_mesh.2 1 4 5 2 3 1 (by norm_num) (by norm_num) (by norm_num)
      (by norm_num) (by norm_num)).2.2.2.2
    (C74_poisson2 heldSquare_mesh.1 heldSquare_mesh.2 1 one_ne_zero _ hj)
    (fun s hs node hnode => by
      have := hside s hs node hnode
      change node < 4 ∧ _
      omega) lowerSide_length f1 f2 hb'.1 (by
      simp only [ite_self]
      exact hb'.2) 2
  refine ⟨fun α => (hret _).1, (hret fun _ => 0).2, K, hK, fun α hα T T' hT hT' => ?_⟩
  rw [f3 α] at hT
  exact h α hα T T' hT hT'

end Conmech
