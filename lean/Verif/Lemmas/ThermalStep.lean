import Verif.Lemmas.ThermalMotion
/-!
How far the passes of a time step lead away from the motion of a thermoelastic body.
-/
namespace Conmech
open Spec
namespace Spec.ThermalBody
variable {b : ThermalBody}

theorem mech_le_distance (h : b.Sound) (u v θ u' v' θ' : ℕ → ℝ) :
    energyDistance b.n b.mass b.elasticity u v u' v' ≤ b.distance u v θ u' v' θ' :=
  Real.sqrt_le_sqrt (by have := h.capacity.nonneg fun p => θ p - θ' p; linarith)

theorem heat_le_distance (h : b.Sound) (u v θ u' v' θ' : ℕ → ℝ) :
    Real.sqrt (quad b.N b.capacity fun p => θ p - θ' p) ≤ b.distance u v θ u' v' θ' :=
  Real.sqrt_le_sqrt (by
    have := h.elasticity.nonneg fun p => u p - u' p
    have := h.mass.nonneg fun p => v p - v' p
    linarith)

theorem mass_le_mech (h : b.Sound) (u v u' v' : ℕ → ℝ) :
    Real.sqrt (quad b.n b.mass fun p => v p - v' p) ≤ energyDistance b.n b.mass b.elasticity u v u' v' :=
  Real.sqrt_le_sqrt (by have := h.elasticity.nonneg fun p => u p - u' p; linarith)

/-- The temperatures of successive passes do not get much further apart. -/
theorem passes_grow (h : b.Sound) {f p q : ℕ → ℝ} {τ Q : ℝ} {m : ℕ} {x w : ℕ → ℕ → ℝ} (hτ : 0 < τ)
    (hQ : 0 ≤ Q) (hc : b.Coupling τ Q) (h0 : Still b.N b.D' (x 0))
    (hp : ∀ i < m, b.Pass f τ p q (x 0) (x i) (w (i + 1)) (x (i + 1))) :
    ∀ i < m, b.stepHeat τ (fun p => x (i + 1) p - x i p) ≤
      (Q ^ 2) ^ i * b.stepHeat τ fun p => x 1 p - x 0 p := by
  have hstill : ∀ i ≤ m, Still b.N b.D' (x i) := by
    intro i hi
    cases i with
    | zero => exact h0
    | succ i => exact (hp i (by omega)).kept
  intro i
  induction i with
  | zero => intro _; simp
  | succ i ih =>
    intro hi
    obtain ⟨c1, c2⟩ := (hp (i + 1) hi).contracts h hτ hQ hc (hp i (by omega)) (hstill _ (by omega))
      (hstill _ (by omega))
    calc b.stepHeat τ (fun p => x (i + 1 + 1) p - x (i + 1) p)
        ≤ Q * (Q * b.stepHeat τ fun p => x (i + 1) p - x i p) :=
          c2.trans (mul_le_mul_of_nonneg_left c1 hQ)
      _ ≤ Q * (Q * ((Q ^ 2) ^ i * b.stepHeat τ fun p => x 1 p - x 0 p)) :=
          mul_le_mul_of_nonneg_left (mul_le_mul_of_nonneg_left (ih (by omega)) hQ) hQ
      _ = _ := by ring

theorem real_sum_le {E τ κ : ℝ} (hE : 0 ≤ E) (hτ : 0 ≤ τ) (hκ : 0 ≤ κ) : E + κ * τ ≤ (1 + κ) * (E + τ) := by
  nlinarith [mul_nonneg hκ hE]

theorem real_step_le {e E τ T c d L cv ca : ℝ} (he : e ≤ E) (hE : 0 ≤ E) (hτ : 0 ≤ τ) (hT : τ ≤ T)
    (hc : 0 ≤ c) (hcv : 0 ≤ cv) (hca : 0 ≤ ca) (hd0 : 0 ≤ d) (hd : d ≤ L * (E + τ)) :
    e + (cv * τ ^ 2 / 2 + τ * (ca * τ / 2 + c * d)) ≤ (1 + T * ((cv + ca) / 2) + T * c * L) * (E + τ) := by
  have h1 : τ * (c * d) ≤ T * (c * (L * (E + τ))) :=
    mul_le_mul hT (mul_le_mul_of_nonneg_left hd hc) (by positivity) (hτ.trans hT)
  have h2 : τ * ((cv + ca) / 2 * τ) ≤ T * ((cv + ca) / 2 * (E + τ)) :=
    mul_le_mul hT (mul_le_mul_of_nonneg_left (by linarith) (by positivity)) (by positivity) (hτ.trans hT)
  calc e + (cv * τ ^ 2 / 2 + τ * (ca * τ / 2 + c * d)) = e + τ * ((cv + ca) / 2 * τ) + τ * (c * d) := by ring
    _ ≤ (E + τ) + T * ((cv + ca) / 2 * (E + τ)) + T * (c * (L * (E + τ))) := by linarith
    _ = _ := by ring

theorem real_last_le {E τ c d L cv ca : ℝ} (hE : 0 ≤ E) (hτ : 0 ≤ τ)
    (hc : 0 ≤ c) (hcv : 0 ≤ cv) (hca : 0 ≤ ca) (hd : d ≤ L * (E + τ)) :
    E + (cv * τ ^ 2 / 2 + τ * (ca * τ / 2 + c * d)) ≤
      (1 + ((cv + ca) / 2 + c * L) * τ) * E + ((cv + ca) / 2 + c * L) * τ ^ 2 := by
  have h1 : τ * (c * d) ≤ τ * (c * (L * (E + τ))) :=
    mul_le_mul_of_nonneg_left (mul_le_mul_of_nonneg_left hd hc) hτ
  have h2 : 0 ≤ (cv + ca) / 2 * τ * E := by positivity
  calc E + (cv * τ ^ 2 / 2 + τ * (ca * τ / 2 + c * d))
      = E + (cv + ca) / 2 * τ ^ 2 + τ * (c * d) := by ring
    _ ≤ E + (cv + ca) / 2 * τ ^ 2 + τ * (c * (L * (E + τ))) + (cv + ca) / 2 * τ * E := by linarith
    _ = _ := by ring

/-- The change of the temperature in the last of at most ten passes. -/
theorem last_change (h : b.Sound) {f p q : ℕ → ℝ} {τ T k Q : ℝ} {j : ℕ} {x w : ℕ → ℕ → ℝ} (hτ : 0 < τ)
    (hT : τ ≤ T) (hk0 : 0 ≤ k) (hk : ∀ x, Still b.N b.D' x → quad b.N b.conductivity x ≤
      k * quad b.N b.capacity x) (hQ : 1 ≤ Q) (hc : b.Coupling τ Q) (h0 : Still b.N b.D' (x 0)) (hj : j < 10)
    (hp : ∀ i < j + 1, b.Pass f τ p q (x 0) (x i) (w (i + 1)) (x (i + 1))) :
    Real.sqrt (quad b.N b.capacity fun i => x j i - x (j + 1) i) ≤
      Q ^ 9 * (1 + k * T) * Real.sqrt (quad b.N b.capacity fun i => x 1 i - x 0 i) := by
  have hQ0 : 0 ≤ Q := zero_le_one.trans hQ
  have h1 := passes_grow h hτ hQ0 hc h0 hp j (by omega)
  have hpow : (Q ^ 2) ^ j ≤ (Q ^ 9) ^ 2 := by
    rw [← pow_mul, ← pow_mul]
    exact pow_le_pow_right₀ hQ (by omega)
  replace h1 := h1.trans (mul_le_mul_of_nonneg_right hpow (h.stepHeat_nonneg hτ _))
  have h2 := hk (fun i => x 1 i - x 0 i) (still_sub (hp 0 (by omega)).kept h0)
  have q0 := h.conductivity.nonneg fun i => x (j + 1) i - x j i
  have q1 := h.capacity.nonneg fun i => x 1 i - x 0 i
  have hT0 : 0 ≤ T := hτ.le.trans hT
  have hG : 0 ≤ Q ^ 9 := pow_nonneg hQ0 9
  unfold stepHeat at h1
  rw [quad_swap]
  generalize quad b.N b.capacity (fun i => x (j + 1) i - x j i) = X at *
  generalize quad b.N b.conductivity (fun i => x (j + 1) i - x j i) = X' at *
  generalize quad b.N b.capacity (fun i => x 1 i - x 0 i) = Y at *
  generalize quad b.N b.conductivity (fun i => x 1 i - x 0 i) = Y' at *
  generalize Q ^ 9 = G at *
  have h4 : X / τ ≤ G ^ 2 * (Y / τ + k * Y) := by
    have := mul_le_mul_of_nonneg_left (add_le_add (le_refl (Y / τ)) h2) (sq_nonneg G)
    linarith
  have h5 : X ≤ G ^ 2 * (Y + τ * (k * Y)) := by
    have := mul_le_mul_of_nonneg_left h4 hτ.le
    rw [mul_div_cancel₀ _ hτ.ne'] at this
    refine this.trans (le_of_eq ?_)
    field_simp
  have h6 : τ * (k * Y) ≤ T * (k * Y) := mul_le_mul_of_nonneg_right hT (by positivity)
  have h7 : 0 ≤ k * T * Y := by positivity
  have h8 : 0 ≤ (k * T) ^ 2 * Y := by positivity
  have h9 : Y + τ * (k * Y) ≤ (1 + k * T) ^ 2 * Y := by
    calc Y + τ * (k * Y) ≤ Y + T * (k * Y) := by linarith
      _ ≤ Y + 2 * (k * T * Y) + (k * T) ^ 2 * Y := by linarith
      _ = _ := by ring
  have h3 : X ≤ (G * (1 + k * T)) ^ 2 * Y := by
    refine h5.trans ((mul_le_mul_of_nonneg_left h9 (sq_nonneg G)).trans (le_of_eq ?_))
    ring
  refine (Real.sqrt_le_sqrt h3).trans (le_of_eq ?_)
  rw [Real.sqrt_mul (sq_nonneg _), Real.sqrt_sq (by positivity)]

set_option maxHeartbeats 800000 in
/-- How far a time step leads away from the motion. -/
theorem thermal_step (h : b.Sound) {f : ℝ → ℕ → ℝ} {T : ℝ} {U V A : ℝ → ℕ → ℝ}
    (hm : b.BothMotion f T U V A) {cv ca cf : ℝ}
    (hmod : Moderate (b.n + b.N) b.bothHeld b.bothMass b.bothElasticity (b.bothLoads f) 0 T V A cv ca cf) :
    ∃ K, 0 ≤ K ∧ ∀ (τ t : ℝ) (p q : ℕ → ℝ) (m : ℕ) (x w : ℕ → ℕ → ℝ), 0 < τ → 0 ≤ t → t + τ ≤ T →
      Still b.N b.D' (x 0) → 0 < m → m ≤ 10 →
      (∀ i < m, b.Pass (f (t + τ)) τ p q (x 0) (x i) (w (i + 1)) (x (i + 1))) →
      b.distance (fun i => p i + τ * w m i) (w m) (x m) (U (t + τ)) (V (t + τ)) (shift b.n (V (t + τ))) ≤
        (1 + K * τ) * b.distance p q (x 0) (U t) (V t) (shift b.n (V t)) + K * τ ^ 2 := by
  obtain ⟨c, hc0, hc⟩ := h.power_le
  obtain ⟨k, hk0, hk⟩ := quad_le h.capacity h.capacious b.conductivity
  obtain ⟨n1, n2, -⟩ := hmod.nonneg
  set N := b.n + b.N
  have hMs := h.storesMass
  have hBs := h.storesElasticity
  set a₀ := Real.sqrt (quad N b.bothMass (A 0)) with ha₀
  have a0 : 0 ≤ a₀ := Real.sqrt_nonneg _
  set T' := max T 0 with hT'
  have hT0 : 0 ≤ T' := le_max_right _ _
  have hTT : T ≤ T' := le_max_left _ _
  set s := (cv + ca) / 2 with hs
  have s0 : 0 ≤ s := by positivity
  set κ := ca * T' / 2 + (a₀ + ca * T') with hκ
  have κ0 : 0 ≤ κ := by positivity
  set L2 := 1 + T' * s + T' * c * (1 + κ) with hL2
  have L20 : 0 ≤ L2 := by positivity
  set L3 := 1 + T' * s + T' * c * L2 with hL3
  have L30 : 0 ≤ L3 := by positivity
  obtain ⟨c', hc'0, hc'⟩ := h.coupling_le
  set G := max 1 ((c' * T') ^ 2) with hG
  have hQ1 : 1 ≤ G := le_max_left _ _
  have hQ9 : 0 ≤ G ^ 9 := pow_nonneg (zero_le_one.trans hQ1) 9
  set L4 := G ^ 9 * (1 + k * T') * (L3 + (1 + κ)) with hL4
  have L40 : 0 ≤ L4 := by positivity
  refine ⟨s + c * L4, by positivity, fun τ t p q m x w hτ ht ht' hx0 hm0 hm10 hpass => ?_⟩
  have m0 : t ∈ Set.Icc 0 T := ⟨ht, by linarith⟩
  have m1 : t + τ ∈ Set.Icc 0 T := ⟨by linarith, ht'⟩
  have mz : (0 : ℝ) ∈ Set.Icc 0 T := ⟨le_rfl, by linarith⟩
  have hτT : τ ≤ T' := by linarith
  have hcoup : b.Coupling τ G := hc' τ G hτ
    ((pow_le_pow_left₀ (by positivity) (mul_le_mul_of_nonneg_left hτT hc'0) 2).trans (le_max_right _ _))
  have b1 := backward_difference hBs hm.velocity n1 hmod.velocity hτ.le m0 m1
  have b2 := backward_difference hMs hm.acceleration n2 hmod.acceleration hτ.le m0 m1
  have mot := h.motion hm
  set E := b.distance p q (x 0) (U t) (V t) (shift b.n (V t)) with hE
  have E0 : 0 ≤ E := Real.sqrt_nonneg _
  set V₁ := V (t + τ) with hV₁
  have still₁ := mot.held _ m1
  have still₂ := mot.kept _ m1
  -- the error of the backward differences of each field
  have e2 : quad b.n b.mass (fun i => V₁ i - V t i - τ * A (t + τ) i) ≤ (ca * τ ^ 2 / 2) ^ 2 ∧
      quad b.N b.capacity (fun i => shift b.n V₁ i - shift b.n (V t) i - τ * shift b.n (A (t + τ)) i) ≤
        (ca * τ ^ 2 / 2) ^ 2 := by
    unfold bothMass at b2
    rw [quad_diagonal] at b2
    have q1 := h.mass.nonneg fun i => V₁ i - V t i - τ * A (t + τ) i
    have q2 := h.capacity.nonneg (shift b.n fun i => V₁ i - V t i - τ * A (t + τ) i)
    exact ⟨by linarith, (show quad b.N b.capacity (shift b.n fun i => V₁ i - V t i - τ * A (t + τ) i) ≤ _ by
      linarith)⟩
  have e1 : quad b.n b.elasticity (fun i => U (t + τ) i - U t i - τ * V₁ i) ≤ (cv * τ ^ 2 / 2) ^ 2 := by
    unfold bothElasticity at b1
    rw [quad_diagonal] at b1
    have q2 : quad b.N (fun _ _ => (0 : ℝ)) (shift b.n fun i => U (t + τ) i - U t i - τ * V (t + τ) i) = 0 := by
      simp [quad]
    linarith
  have scale : ∀ (n' : ℕ) (M' : ℕ → ℕ → ℝ) (v₁ v₀ a : ℕ → ℝ),
      quad n' M' (fun i => v₁ i - v₀ i - τ * a i) ≤ (ca * τ ^ 2 / 2) ^ 2 →
      quad n' M' (fun i => a i - (v₁ i - v₀ i) / τ) ≤ (ca * τ / 2) ^ 2 := by
    intro n' M' v₁ v₀ a hq
    have e : (fun i => a i - (v₁ i - v₀ i) / τ) = fun i => (-1 / τ) * (v₁ i - v₀ i - τ * a i) := by
      funext i; field_simp; ring
    rw [e, quad_scaled]
    calc (-1 / τ) ^ 2 * quad n' M' (fun i => v₁ i - v₀ i - τ * a i)
        ≤ (-1 / τ) ^ 2 * (ca * τ ^ 2 / 2) ^ 2 := mul_le_mul_of_nonneg_left hq (sq_nonneg _)
      _ = (ca * τ / 2) ^ 2 := by field_simp
  -- how far the temperature moves
  have hacc : Real.sqrt (quad N b.bothMass (A (t + τ))) ≤ a₀ + ca * T' := by
    have h1 := hmod.acceleration (t + τ) m1 0 mz
    have h2 := sqrt_quad_add hMs (fun i => A (t + τ) i - A 0 i) (A 0)
    simp only [sub_add_cancel] at h2
    have h3 : Real.sqrt (quad N b.bothMass fun i => A (t + τ) i - A 0 i) ≤ ca * T' := by
      refine Real.sqrt_le_iff.2 ⟨by positivity, h1.trans ?_⟩
      refine pow_le_pow_left₀ (by rw [sub_zero]; have := m1.1; positivity) ?_ 2
      rw [sub_zero]
      exact mul_le_mul_of_nonneg_left (by linarith) n2
    change Real.sqrt (quad N b.bothMass (A (t + τ))) ≤ _ at h2
    linarith
  have hmove : Real.sqrt (quad b.N b.capacity fun i => shift b.n V₁ i - shift b.n (V t) i) ≤ κ * τ := by
    have h1 : Real.sqrt (quad N b.bothMass fun i => V₁ i - V t i) ≤ κ * τ := by
      have h2 := sqrt_quad_add hMs (fun i => V₁ i - V t i - τ * A (t + τ) i) fun i => τ * A (t + τ) i
      simp only [sub_add_cancel] at h2
      have h3 : Real.sqrt (quad N b.bothMass fun i => V₁ i - V t i - τ * A (t + τ) i) ≤ ca * τ ^ 2 / 2 :=
        Real.sqrt_le_iff.2 ⟨by positivity, b2⟩
      have h4 : Real.sqrt (quad N b.bothMass fun i => τ * A (t + τ) i) ≤ τ * (a₀ + ca * T') := by
        rw [quad_scaled, Real.sqrt_mul (sq_nonneg _), Real.sqrt_sq hτ.le]
        exact mul_le_mul_of_nonneg_left hacc hτ.le
      have h5 : ca * τ ^ 2 / 2 ≤ ca * T' / 2 * τ := by
        have : ca * τ * τ ≤ ca * T' * τ :=
          mul_le_mul_of_nonneg_right (mul_le_mul_of_nonneg_left hτT n2) hτ.le
        calc ca * τ ^ 2 / 2 = ca * τ * τ / 2 := by ring
          _ ≤ ca * T' * τ / 2 := by linarith
          _ = _ := by ring
      rw [hκ, add_mul]
      change Real.sqrt (quad N b.bothMass fun i => V₁ i - V t i) ≤ _ at h2
      linarith
    refine le_trans (Real.sqrt_le_sqrt ?_) h1
    unfold bothMass
    rw [quad_diagonal]
    have := h.mass.nonneg fun i => V₁ i - V t i
    change quad b.N b.capacity (shift b.n fun i => V₁ i - V t i) ≤ _
    linarith
  have hd1 : Real.sqrt (quad b.N b.capacity fun i => x 0 i - shift b.n V₁ i) ≤ (1 + κ) * (E + τ) := by
    have h1 := sqrt_quad_triangle h.capacity (x 0) (shift b.n (V t)) (shift b.n V₁)
    have h2 := heat_le_distance h p q (x 0) (U t) (V t) (shift b.n (V t))
    rw [quad_swap b.capacity (shift b.n (V t)) (shift b.n V₁)] at h1
    exact (h1.trans (add_le_add h2 hmove)).trans (real_sum_le E0 hτ.le κ0)
  -- the forces of a difference of temperatures
  have work : ∀ (y : ℕ → ℝ) (v : ℕ → ℝ), Still b.N b.D' y → Still b.n b.D v →
      ∑ r ∈ Finset.range b.n, v r * b.thermalForce y r ≤
        c * Real.sqrt (quad b.N b.capacity y) * Real.sqrt (quad b.n b.mass v) := fun y v hy hv => by
    rw [← power_eq]
    exact (le_abs_self _).trans (hc v y hv hy)
  -- the velocity of the first pass
  have p1 := hpass 0 hm0
  rw [zero_add] at p1
  have hX : Real.sqrt (quad b.n b.mass fun i => w 1 i - V₁ i) ≤ L2 * (E + τ) := by
    have h1 := distance_step (u := p) (v := q) (u₀ := U t) (v₀ := V t) (ρ := ca * τ / 2)
      (σ := cv * τ ^ 2 / 2) (β := c * Real.sqrt (quad b.N b.capacity fun i => x 0 i - shift b.n V₁ i))
      h.mass h.viscosity h.elasticity hτ p1.held still₁ p1.moves (mot.moves _ m1) (by positivity)
      (by positivity) (by positivity) (scale _ _ _ _ _ e2.1) e1 (by
        have := work (fun i => x 0 i - shift b.n V₁ i) (fun i => w 1 i - V₁ i) (still_sub hx0 still₂)
          (still_sub p1.held still₁)
        refine le_trans (le_of_eq (Finset.sum_congr rfl fun r _ => ?_)) this
        rw [thermalForce_sub]; ring)
    have h2 := mass_le_mech h (fun i => p i + τ * w 1 i) (w 1) (U (t + τ)) V₁
    have h3 := mech_le_distance h p q (x 0) (U t) (V t) (shift b.n (V t))
    exact h2.trans (h1.trans (real_step_le h3 E0 hτ.le hτT hc0 n1 n2 (Real.sqrt_nonneg _) hd1))
  -- the temperature of the first pass
  have hY : Real.sqrt (quad b.N b.capacity fun i => x 1 i - shift b.n V₁ i) ≤ L3 * (E + τ) := by
    have h1 := distance_step (u := fun i => 0 - τ * x 1 i) (v := x 0) (u₀ := fun i => 0 - τ * shift b.n V₁ i)
      (v₀ := shift b.n (V t)) (u₁ := fun _ => 0) (ρ := ca * τ / 2)
      (σ := 0) (β := c * Real.sqrt (quad b.n b.mass fun i => w 1 i - V₁ i))
      h.capacity h.conductivity (storesNothing b.N) hτ p1.kept still₂
      (p1.heats.balanced fun i => (0 - τ * x 1 i) + τ * x 1 i) ((mot.heats _ m1).balanced fun _ => 0)
      (by positivity) le_rfl (by positivity) (scale _ _ _ _ _ e2.2) (by simp [quad]) (by
        have h2 := hc (fun i => w 1 i - V₁ i) (fun i => x 1 i - shift b.n V₁ i) (still_sub p1.held still₁)
          (still_sub p1.kept still₂)
        have h3 := (neg_le_abs _).trans h2
        refine le_trans (le_of_eq ?_) (h3.trans (le_of_eq (by ring)))
        unfold power
        rw [← Finset.sum_neg_distrib]
        refine Finset.sum_congr rfl fun r _ => ?_
        rw [act_difference]; ring)
    have e0 : ∀ u v u' v', energyDistance b.N b.capacity (fun _ _ => 0) u v u' v' =
        Real.sqrt (quad b.N b.capacity fun i => v i - v' i) := by
      intro u v u' v'
      unfold energyDistance
      have : quad b.N (fun _ _ => (0 : ℝ)) (fun i => u i - u' i) = 0 := by simp [quad]
      rw [this, zero_add]
    rw [e0, e0] at h1
    have h3 := heat_le_distance h p q (x 0) (U t) (V t) (shift b.n (V t))
    have h4 : (0 : ℝ) ≤ cv * τ ^ 2 / 2 := by positivity
    exact h1.trans ((add_le_add le_rfl (add_le_add h4 le_rfl)).trans
      (real_step_le h3 E0 hτ.le hτT hc0 n1 n2 (Real.sqrt_nonneg _) hX))
  -- the change of the temperature in the last pass
  obtain ⟨j, rfl⟩ : ∃ j, m = j + 1 := ⟨m - 1, by omega⟩
  have hxj : Still b.N b.D' (x j) := by
    cases j with
    | zero => exact hx0
    | succ j => exact (hpass j (by omega)).kept
  have pm := hpass j (by omega)
  have hδ : Real.sqrt (quad b.N b.capacity fun i => x j i - x (j + 1) i) ≤ L4 * (E + τ) := by
    have h4 := last_change h hτ hτT hk0 hk hQ1 hcoup hx0 (by omega) hpass
    have h5 := sqrt_quad_triangle h.capacity (x 1) (shift b.n V₁) (x 0)
    rw [quad_swap b.capacity (shift b.n V₁) (x 0)] at h5
    refine h4.trans ?_
    rw [hL4, mul_assoc (G ^ 9 * (1 + k * T')) (L3 + (1 + κ)) (E + τ)]
    refine mul_le_mul_of_nonneg_left ?_ (by positivity)
    rw [add_mul]
    linarith
  -- both fields
  set W : ℕ → ℝ := pair b.n (w (j + 1)) (x (j + 1)) with hW
  have hWs : shift b.n W = x (j + 1) := shift_pair _ _ _
  have hWl : ∀ r < b.n, W r = w (j + 1) r := fun r hr => pair_left _ _ hr
  have hWstill : Still N b.bothHeld W := still_both.2 ⟨fun r hr hD => by
    rw [hWl r hr]; exact pm.held r hr hD, by rw [hWs]; exact pm.kept⟩
  set P : ℕ → ℝ := pair b.n p fun _ => 0 with hP
  set Q : ℕ → ℝ := pair b.n q (x 0) with hQ
  set F : ℕ → ℝ := pair b.n (fun r => f (t + τ) r + b.thermalForce (fun i => x j i - x (j + 1) i) r)
    fun _ => 0 with hF
  obtain ⟨g, kg, -, hg⟩ := h.contact
  have hbal : Balanced N b.bothHeld b.bothMass b.bothViscosity b.bothElasticity b.bothContact F
      (fun i => P i + τ * W i) W fun i => (W i - Q i) / τ := by
    refine (h.both (fun i _ => by simp [hF, pair]) hWstill).2 ⟨?_, ?_⟩
    · rw [hWs]
      intro y hy
      refine (pm.moves y hy).trans (le_of_eq ?_)
      rw [hg.same hWl]
      congr 1
      refine Finset.sum_congr rfl fun r hr => ?_
      have hr := Finset.mem_range.1 hr
      have a1 : ∀ i < b.n, (W i - Q i) / τ = (w (j + 1) i - q i) / τ := fun i hi => by
        rw [hWl i hi, hQ, pair_left _ _ hi]
      have a2 : ∀ i < b.n, P i + τ * W i = p i + τ * w (j + 1) i := fun i hi => by
        rw [hWl i hi, hP, pair_left _ _ hi]
      rw [act_congr a1, act_congr hWl, act_congr a2, hWl r hr]
      beta_reduce
      rw [hF, pair_left _ _ hr, thermalForce_sub]
      ring
    · rw [hWs]
      have a3 : shift b.n (fun i => (W i - Q i) / τ) = fun i => (x (j + 1) i - x 0 i) / τ := by
        funext i; simp only [shift, hW, hQ, pair_right]
      rw [a3]
      intro ζ hζ
      refine (pm.heats ζ hζ).trans (le_of_eq ?_)
      congr 1
      exact Finset.sum_congr rfl fun i _ => by rw [act_congr hWl]
  have key := distance_step (u := P) (v := Q) (u₀ := U t) (v₀ := V t) (ρ := ca * τ / 2)
    (σ := cv * τ ^ 2 / 2) (β := c * Real.sqrt (quad b.N b.capacity fun i => x j i - x (j + 1) i))
    hMs h.dissipates hBs hτ hWstill (hm.held _ m1) hbal (hm.balanced _ m1) (by positivity) (by positivity)
    (by positivity) (scale _ _ _ _ _ b2) b1 (by
      have h1 := work (fun i => x j i - x (j + 1) i) (fun i => w (j + 1) i - V₁ i) (still_sub hxj pm.kept)
        (still_sub pm.held still₁)
      have h2 : Real.sqrt (quad b.n b.mass fun i => w (j + 1) i - V₁ i) ≤
          Real.sqrt (quad N b.bothMass fun i => W i - V₁ i) := by
        refine Real.sqrt_le_sqrt ?_
        unfold bothMass
        rw [quad_diagonal, quad_congr (x := fun i => w (j + 1) i - V₁ i) (y := fun i => W i - V₁ i)
          fun r hr => by rw [hWl r hr]]
        have := h.capacity.nonneg (shift b.n fun i => W i - V₁ i)
        linarith
      refine le_trans (le_of_eq ?_) (h1.trans (mul_le_mul_of_nonneg_left h2 (by positivity)))
      rw [Finset.sum_range_add]
      have z : ∑ i ∈ Finset.range b.N, (W (b.n + i) - V (t + τ) (b.n + i)) *
          (F (b.n + i) - b.bothLoads f (t + τ) (b.n + i)) = 0 :=
        Finset.sum_eq_zero fun i _ => by simp [hF, bothLoads, pair]
      rw [z, add_zero]
      refine Finset.sum_congr rfl fun r hr => ?_
      have hr := Finset.mem_range.1 hr
      rw [hWl r hr, hF]
      unfold bothLoads
      rw [pair_left _ _ hr, pair_left _ _ hr]; ring)
  rw [distance_eq, distance_eq, hWs] at key
  rw [distance_congr (x := fun i => p i + τ * w (j + 1) i) (y := w (j + 1)) (ζ := x (j + 1))
      (fun i hi => by rw [hWl i hi, hP, pair_left _ _ hi]) hWl (fun _ _ => rfl),
    distance_congr (u := P) (x := p) (y := q) (ζ := x 0) (fun i hi => pair_left _ _ hi)
      (fun i hi => pair_left _ _ hi) (fun i _ => by rw [hQ, shift_pair])] at key
  refine key.trans ?_
  exact real_last_le E0 hτ.le hc0 n1 n2 hδ

end Spec.ThermalBody
end Conmech
