import Verif.Lemmas.Thermoelastic
/-!
The two fields of a thermoelastic body as one vector: the displacements first, then the temperatures.
-/
namespace Conmech
open Spec

/-! ### Vectors and matrices of blocks -/

/-- Two vectors, one after the other. -/
def pair {α : Type} (n : ℕ) (x y : ℕ → α) : ℕ → α := fun i => if i < n then x i else y (i - n)

/-- The second part. -/
def shift {α : Type} (n : ℕ) (z : ℕ → α) : ℕ → α := fun p => z (n + p)

/-- A matrix of four blocks. -/
def fourBlocks (n : ℕ) (P Q R S : ℕ → ℕ → ℝ) : ℕ → ℕ → ℝ := fun r s =>
  if r < n then (if s < n then P r s else Q r (s - n)) else
    (if s < n then R (r - n) s else S (r - n) (s - n))

theorem pair_left {α : Type} {n : ℕ} (x y : ℕ → α) {i : ℕ} (h : i < n) : pair n x y i = x i := by
  simp [pair, h]

theorem shift_pair {α : Type} (n : ℕ) (x y : ℕ → α) : shift n (pair n x y) = y := by
  funext p; simp [pair, shift]

theorem pair_right {α : Type} (n : ℕ) (x y : ℕ → α) (p : ℕ) : pair n x y (n + p) = y p := by
  simp [pair]

section
variable {n N : ℕ} {P Q R S : ℕ → ℕ → ℝ}

theorem act_block_left (z : ℕ → ℝ) {r : ℕ} (hr : r < n) :
    act (n + N) (fourBlocks n P Q R S) z r = act n P z r + act N Q (shift n z) r := by
  unfold act
  rw [Finset.sum_range_add]
  congr 1
  · exact Finset.sum_congr rfl fun s hs => by simp [fourBlocks, hr, Finset.mem_range.1 hs]
  · exact Finset.sum_congr rfl fun s _ => by simp [fourBlocks, hr, shift]

theorem act_block_right (z : ℕ → ℝ) (p : ℕ) :
    act (n + N) (fourBlocks n P Q R S) z (n + p) = act n R z p + act N S (shift n z) p := by
  unfold act
  rw [Finset.sum_range_add]
  congr 1
  · exact Finset.sum_congr rfl fun s hs => by simp [fourBlocks, Finset.mem_range.1 hs]
  · exact Finset.sum_congr rfl fun s _ => by simp [fourBlocks, shift]

theorem quad_block (z : ℕ → ℝ) : quad (n + N) (fourBlocks n P Q R S) z =
    quad n P z + (∑ r ∈ Finset.range n, z r * act N Q (shift n z) r +
      ∑ p ∈ Finset.range N, shift n z p * act n R z p) + quad N S (shift n z) := by
  rw [quad_eq_act, quad_eq_act, quad_eq_act, Finset.sum_range_add]
  have h1 : ∑ r ∈ Finset.range n, z r * act (n + N) (fourBlocks n P Q R S) z r =
      ∑ r ∈ Finset.range n, z r * act n P z r + ∑ r ∈ Finset.range n, z r * act N Q (shift n z) r := by
    rw [← Finset.sum_add_distrib]
    refine Finset.sum_congr rfl fun r hr => ?_
    rw [act_block_left z (Finset.mem_range.1 hr)]; ring
  have h2 : ∑ p ∈ Finset.range N, z (n + p) * act (n + N) (fourBlocks n P Q R S) z (n + p) =
      ∑ p ∈ Finset.range N, shift n z p * act n R z p +
        ∑ p ∈ Finset.range N, shift n z p * act N S (shift n z) p := by
    rw [← Finset.sum_add_distrib]
    refine Finset.sum_congr rfl fun p _ => ?_
    rw [act_block_right z p]; simp only [shift]; ring
  rw [h1, h2]; ring

theorem quad_diagonal (z : ℕ → ℝ) :
    quad (n + N) (fourBlocks n P (fun _ _ => 0) (fun _ _ => 0) S) z = quad n P z + quad N S (shift n z) := by
  rw [quad_block]
  simp [act]

theorem act_congr {M : ℕ → ℕ → ℝ} {x y : ℕ → ℝ} (h : ∀ r < n, x r = y r) (r : ℕ) :
    act n M x r = act n M y r :=
  Finset.sum_congr rfl fun s hs => by rw [h s (Finset.mem_range.1 hs)]

theorem quad_congr {M : ℕ → ℕ → ℝ} {x y : ℕ → ℝ} (h : ∀ r < n, x r = y r) : quad n M x = quad n M y := by
  rw [quad_eq_act, quad_eq_act]
  exact Finset.sum_congr rfl fun r hr => by rw [h r (Finset.mem_range.1 hr), act_congr h]

theorem act_zero (z : ℕ → ℝ) (r : ℕ) : act n (fun _ _ => (0 : ℝ)) z r = 0 := by simp [act]

theorem storesEnergy_diagonal (hP : StoresEnergy n P) (hS : StoresEnergy N S) :
    StoresEnergy (n + N) (fourBlocks n P (fun _ _ => 0) (fun _ _ => 0) S) := by
  refine ⟨fun r hr s hs => ?_, fun x => ?_⟩
  · unfold fourBlocks
    split_ifs with h1 h2 h2
    · exact hP.symm r h1 s h2
    · rfl
    · rfl
    · exact hS.symm _ (by omega) _ (by omega)
  · rw [quad_diagonal]
    exact add_nonneg (hP.nonneg _) (hS.nonneg _)

end

/-- The cost of contact depends on the degrees of freedom only. -/
theorem Spec.SmoothContact.same {n : ℕ} {J : (ℕ → ℝ) → ℝ} {g : (ℕ → ℝ) → ℕ → ℝ} {k : ℝ}
    (h : SmoothContact n J g k) {x y : ℕ → ℝ} (hxy : ∀ r < n, x r = y r) : J x = J y := by
  have key : ∀ x y : ℕ → ℝ, (∀ r < n, x r = y r) → J x ≤ J y := by
    intro x y hxy
    have := h.subgradient x y
    rwa [Finset.sum_eq_zero, add_zero] at this
    intro r hr
    rw [hxy r (Finset.mem_range.1 hr)]; ring
  exact le_antisymm (key x y hxy) (key y x fun r hr => (hxy r hr).symm)

/-! ### Bodies -/

namespace Spec.ThermalBody
variable (b : ThermalBody)

/-- What is held, as one set. -/
def bothHeld : ℕ → Prop := pair b.n b.D b.D'
noncomputable def bothMass : ℕ → ℕ → ℝ := fourBlocks b.n b.mass (fun _ _ => 0) (fun _ _ => 0) b.capacity
noncomputable def bothElasticity : ℕ → ℕ → ℝ :=
  fourBlocks b.n b.elasticity (fun _ _ => 0) (fun _ _ => 0) (fun _ _ => 0)
noncomputable def bothViscosity : ℕ → ℕ → ℝ :=
  fourBlocks b.n b.viscosity (fun r p => -b.expansion p r) b.expansion b.conductivity
noncomputable def bothContact : (ℕ → ℝ) → ℝ := fun z => b.contact z + b.exchange (shift b.n z)

variable {b}

theorem still_both {z : ℕ → ℝ} :
    Still (b.n + b.N) b.bothHeld z ↔ Still b.n b.D z ∧ Still b.N b.D' (shift b.n z) := by
  constructor
  · refine fun h => ⟨fun r hr hD => h r (by omega) ?_, fun p hp hD => h (b.n + p) (by omega) ?_⟩
    · unfold bothHeld; rw [pair_left _ _ hr]; exact hD
    · unfold bothHeld; rw [pair_right]; exact hD
  · rintro ⟨h1, h2⟩ r hr hD
    unfold bothHeld at hD
    by_cases h : r < b.n
    · rw [pair_left _ _ h] at hD; exact h1 r h hD
    · obtain ⟨p, rfl⟩ : ∃ p, r = b.n + p := ⟨r - b.n, by omega⟩
      rw [pair_right] at hD
      exact h2 p (by omega) hD

theorem Sound.storesMass (h : b.Sound) : StoresEnergy (b.n + b.N) b.bothMass :=
  storesEnergy_diagonal h.mass h.capacity

theorem Sound.storesElasticity (h : b.Sound) : StoresEnergy (b.n + b.N) b.bothElasticity :=
  storesEnergy_diagonal h.elasticity (storesNothing _)

theorem power_transposed (z : ℕ → ℝ) :
    ∑ r ∈ Finset.range b.n, z r * act b.N (fun r p => -b.expansion p r) (shift b.n z) r =
      -b.power (shift b.n z) z := by
  rw [power_eq, ← Finset.sum_neg_distrib]
  refine Finset.sum_congr rfl fun r _ => ?_
  simp [thermalForce, act]

/-- The coupling neither stores nor dissipates energy. -/
theorem Sound.dissipates (h : b.Sound) : Dissipates (b.n + b.N) b.bothViscosity := by
  refine ⟨fun z => ?_⟩
  unfold bothViscosity
  rw [quad_block, power_transposed]
  have h1 := h.viscosity.nonneg z
  have h2 := h.conductivity.nonneg (shift b.n z)
  unfold power
  linarith

theorem Sound.definite (h : b.Sound) : DefiniteOn (b.n + b.N) b.bothHeld b.bothMass := by
  intro z hz hq r hr
  obtain ⟨h1, h2⟩ := still_both.1 hz
  unfold bothMass at hq
  rw [quad_diagonal] at hq
  have q1 := h.mass.nonneg z
  have q2 := h.capacity.nonneg (shift b.n z)
  by_cases hn : r < b.n
  · exact h.massive z h1 (by linarith) r hn
  · obtain ⟨p, rfl⟩ : ∃ p, r = b.n + p := ⟨r - b.n, by omega⟩
    exact h.capacious (shift b.n z) h2 (by linarith) p (by omega)

theorem Sound.smooth (h : b.Sound) :
    ∃ g k, 0 ≤ k ∧ SmoothContact (b.n + b.N) b.bothContact g k := by
  obtain ⟨g, k, hk, hg⟩ := h.contact
  obtain ⟨g', k', hk', hg'⟩ := h.exchange
  refine ⟨fun z => pair b.n (g z) (g' (shift b.n z)), k + k', by positivity, ⟨fun v y => ?_, fun v w r hr => ?_⟩⟩
  · have h1 := hg.subgradient v y
    have h2 := hg'.subgradient (shift b.n v) (shift b.n y)
    unfold bothContact
    rw [Finset.sum_range_add]
    have e1 : ∑ r ∈ Finset.range b.n, (y r - v r) * pair b.n (g v) (g' (shift b.n v)) r =
        ∑ r ∈ Finset.range b.n, (y r - v r) * g v r :=
      Finset.sum_congr rfl fun r hr => by rw [pair_left _ _ (Finset.mem_range.1 hr)]
    simp only [pair_right]
    rw [e1]
    simp only [shift] at h2 ⊢
    linarith
  · have s1 : 0 ≤ ∑ s ∈ Finset.range b.n, |v s - w s| := Finset.sum_nonneg fun _ _ => abs_nonneg _
    have s2 : 0 ≤ ∑ p ∈ Finset.range b.N, |v (b.n + p) - w (b.n + p)| :=
      Finset.sum_nonneg fun _ _ => abs_nonneg _
    rw [Finset.sum_range_add]
    by_cases hn : r < b.n
    · rw [pair_left _ _ hn, pair_left _ _ hn]
      have := hg.lipschitz v w r hn
      nlinarith [mul_nonneg hk s2, mul_nonneg hk' s1, mul_nonneg hk' s2]
    · obtain ⟨p, rfl⟩ : ∃ p, r = b.n + p := ⟨r - b.n, by omega⟩
      rw [pair_right, pair_right]
      have := hg'.lipschitz (shift b.n v) (shift b.n w) p (by omega)
      simp only [shift] at this ⊢
      nlinarith [mul_nonneg hk s1, mul_nonneg hk s2, mul_nonneg hk' s1]

/-- The residual of both equations. -/
theorem both_residual (F u v a y : ℕ → ℝ) :
    ∑ r ∈ Finset.range (b.n + b.N), (y r - v r) * (act (b.n + b.N) b.bothMass a r +
      act (b.n + b.N) b.bothViscosity v r + act (b.n + b.N) b.bothElasticity u r - F r) =
    ∑ r ∈ Finset.range b.n, (y r - v r) * (act b.n b.mass a r + act b.n b.viscosity v r +
      act b.n b.elasticity u r - (F r + b.thermalForce (shift b.n v) r)) +
    ∑ p ∈ Finset.range b.N, (shift b.n y p - shift b.n v p) * (act b.N b.capacity (shift b.n a) p +
      act b.N b.conductivity (shift b.n v) p + act b.n b.expansion v p - F (b.n + p)) := by
  rw [Finset.sum_range_add]
  congr 1
  · refine Finset.sum_congr rfl fun r hr => ?_
    have hr := Finset.mem_range.1 hr
    unfold bothMass bothViscosity bothElasticity
    rw [act_block_left _ hr, act_block_left _ hr, act_block_left _ hr, act_zero, act_zero]
    have : act b.N (fun r p => -b.expansion p r) (shift b.n v) r = -b.thermalForce (shift b.n v) r := by
      simp [thermalForce, act]
    rw [this]; ring
  · refine Finset.sum_congr rfl fun p _ => ?_
    unfold bothMass bothViscosity bothElasticity
    rw [act_block_right, act_block_right, act_block_right, act_zero, act_zero, act_zero]
    simp only [shift]; ring

/-- Both equations as one. -/
theorem Sound.both (h : b.Sound) {F u v a : ℕ → ℝ} (hF : ∀ p < b.N, F (b.n + p) = 0)
    (hv : Still (b.n + b.N) b.bothHeld v) :
    Balanced (b.n + b.N) b.bothHeld b.bothMass b.bothViscosity b.bothElasticity b.bothContact F u v a ↔
      b.Moves F (shift b.n v) u v a ∧ b.Heats v (shift b.n v) (shift b.n a) := by
  obtain ⟨v1, v2⟩ := still_both.1 hv
  obtain ⟨g, k, -, hg⟩ := h.contact
  have hheat : ∀ ζ : ℕ → ℝ, ∑ p ∈ Finset.range b.N, (ζ p - shift b.n v p) *
      (act b.N b.capacity (shift b.n a) p + act b.N b.conductivity (shift b.n v) p +
        act b.n b.expansion v p - F (b.n + p)) =
      ∑ p ∈ Finset.range b.N, (ζ p - shift b.n v p) * (act b.N b.capacity (shift b.n a) p +
        act b.N b.conductivity (shift b.n v) p + act b.n b.expansion v p) := fun ζ =>
    Finset.sum_congr rfl fun p hp => by rw [hF p (Finset.mem_range.1 hp), sub_zero]
  constructor
  · intro hbal
    constructor
    · intro y hy
      have h1 := hbal (pair b.n y (shift b.n v))
        (still_both.2 ⟨fun r hr hD => by rw [pair_left _ _ hr]; exact hy r hr hD, by
          rw [shift_pair]; exact v2⟩)
      rw [both_residual, shift_pair] at h1
      unfold bothContact at h1
      rw [shift_pair, hg.same (fun r hr => pair_left y (shift b.n v) hr)] at h1
      have e1 : ∀ (c : ℕ → ℝ), ∑ r ∈ Finset.range b.n, (pair b.n y (shift b.n v) r - v r) * c r =
          ∑ r ∈ Finset.range b.n, (y r - v r) * c r := fun c =>
        Finset.sum_congr rfl fun r hr => by rw [pair_left _ _ (Finset.mem_range.1 hr)]
      have e2 : ∀ (c : ℕ → ℝ), ∑ p ∈ Finset.range b.N, (shift b.n v p - shift b.n v p) * c p = 0 := fun c =>
        Finset.sum_eq_zero fun p _ => by ring
      rw [e1, e2] at h1
      linarith
    · intro ζ hζ
      have h1 := hbal (pair b.n v ζ)
        (still_both.2 ⟨fun r hr hD => by rw [pair_left _ _ hr]; exact v1 r hr hD, by
          rw [shift_pair]; exact hζ⟩)
      rw [both_residual, shift_pair, hheat] at h1
      unfold bothContact at h1
      rw [shift_pair, hg.same (fun r hr => pair_left v ζ hr)] at h1
      have e1 : ∀ (c : ℕ → ℝ), ∑ r ∈ Finset.range b.n, (pair b.n v ζ r - v r) * c r = 0 := fun c =>
        Finset.sum_eq_zero fun r hr => by rw [pair_left _ _ (Finset.mem_range.1 hr)]; ring
      rw [e1] at h1
      linarith
  · rintro ⟨h1, h2⟩ y hy
    obtain ⟨y1, y2⟩ := still_both.1 hy
    have k1 := h1 y y1
    have k2 := h2 (shift b.n y) y2
    rw [both_residual, hheat]
    unfold bothContact
    linarith

end Spec.ThermalBody
end Conmech
