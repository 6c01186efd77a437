import Verif.Lemmas.Piezoelectric
/-!
The passes of a time step of a piezoelectric body, and how far a step leads away from the motion.
-/
namespace Conmech
open Spec

/-- One quasistatic time step with disturbed loads, compared with the motion. -/
theorem creep_step_disturbed {n : ℕ} {D : ℕ → Prop} {A B : ℕ → ℕ → ℝ} {J : (ℕ → ℝ) → ℝ} {f : ℝ → ℕ → ℝ}
    (hA : Dissipates n A) (hB : StoresEnergy n B) {t₀ t₁ : ℝ} {x v : ℝ → ℕ → ℝ}
    (hm : Creep n D A B J f t₀ t₁ x v) {cv cf : ℝ} (hmod : ModerateCreep n D A B f t₀ t₁ v cv cf)
    {τ t ρ : ℝ} (hτ : 0 < τ) (ht : t₀ ≤ t) (ht' : t + τ ≤ t₁) {p w a F : ℕ → ℝ} (hw : Still n D w)
    (hF : ∀ z, Still n D z →
      |∑ r ∈ Finset.range n, z r * (F r - f (t + τ) r)| ≤ ρ * Real.sqrt (quad n A z))
    (h : Balanced n D (fun _ _ => 0) A B J F (fun i => p i + τ * w i) w a) :
    strainDistance n B (fun i => p i + τ * w i) (x (t + τ)) ≤
      Real.sqrt (strainDistance n B p (x t) ^ 2 + τ * (ρ ^ 2 / 2)) + τ * (cv * τ / 2) := by
  have m0 : t ∈ Set.Icc t₀ t₁ := ⟨ht, by linarith⟩
  have m1 : t + τ ∈ Set.Icc t₀ t₁ := ⟨by linarith, ht'⟩
  obtain ⟨n1, n2⟩ := hmod.nonneg
  have hσ := backward_difference hB hm.velocity n1 hmod.velocity hτ.le m0 m1
  have key := balanced_difference hw (hm.held _ m1) h (creep_balanced hm (fun _ => 0) _ m1)
  set u₁ := x (t + τ) with hu₁
  set u₀ := x t with hu₀
  set v₁ := v (t + τ) with hv₁
  set P : ℕ → ℝ := fun i => p i + τ * w i with hP
  set σ := cv * τ ^ 2 / 2 with hσd
  have hσ0 : 0 ≤ σ := by positivity
  set N₁ := strainDistance n B P u₁ with hN₁
  set N₀ := strainDistance n B p u₀ with hN₀
  have hN₁0 : 0 ≤ N₁ := Real.sqrt_nonneg _
  have hN₀0 : 0 ≤ N₀ := Real.sqrt_nonneg _
  have hsq : N₁ ^ 2 = quad n B (fun i => P i - u₁ i) := Real.sq_sqrt (hB.nonneg _)
  have eB : (fun i => w i - v₁ i) = fun i => (1 / τ) * ((P i - u₁ i) - (p i - u₀ i) +
      (u₁ i - u₀ i - τ * v₁ i)) := by
    funext i; simp only [hP]; field_simp; ring
  have k2 : bilin n B (fun i => w i - v₁ i) (fun i => P i - u₁ i) =
      1 / τ * (quad n B (fun i => P i - u₁ i) -
        bilin n B (fun i => p i - u₀ i) (fun i => P i - u₁ i) +
        bilin n B (fun i => u₁ i - u₀ i - τ * v₁ i) (fun i => P i - u₁ i)) := by
    rw [eB, bilin_smul_left, bilin_add_left, bilin_sub_left, quad_eq_bilin]
  have c1 : bilin n B (fun i => p i - u₀ i) (fun i => P i - u₁ i) ≤ N₀ * N₁ := bilin_le_sqrt hB _ _
  have c3 : -bilin n B (fun i => u₁ i - u₀ i - τ * v₁ i) (fun i => P i - u₁ i) ≤ σ * N₁ := by
    have e : -bilin n B (fun i => u₁ i - u₀ i - τ * v₁ i) (fun i => P i - u₁ i) =
        bilin n B (fun i => u₁ i - u₀ i - τ * v₁ i) (fun i => (-1) * (P i - u₁ i)) := by
      rw [bilin_smul_right]; ring
    have e' : quad n B (fun i => (-1) * (P i - u₁ i)) = quad n B (fun i => P i - u₁ i) := by
      rw [quad_eq_bilin, quad_eq_bilin, bilin_smul_left, bilin_smul_right]; ring
    rw [e]
    refine (bilin_le_sqrt hB _ _).trans ?_
    rw [e']
    exact mul_le_mul (Real.sqrt_le_iff.2 ⟨hσ0, hσ⟩) le_rfl (Real.sqrt_nonneg _) hσ0
  have hq := hA.nonneg fun i => w i - v₁ i
  have c4 : ∑ r ∈ Finset.range n, (w r - v₁ r) * (F r - f (t + τ) r) ≤
      quad n A (fun i => w i - v₁ i) + ρ ^ 2 / 4 := by
    have h3 := (le_abs_self _).trans (hF (fun i => w i - v₁ i) (still_sub hw (hm.held _ m1)))
    have h4 := Real.sq_sqrt hq
    nlinarith [sq_nonneg (Real.sqrt (quad n A fun i => w i - v₁ i) - ρ / 2)]
  have total : N₁ ^ 2 ≤ N₁ * (N₀ + σ) + τ * (ρ ^ 2 / 4) := by
    rw [bilin_zero_matrix, k2] at key
    have key' := mul_le_mul_of_nonneg_left (key.trans c4) hτ.le
    have e : τ * (0 + quad n A (fun i => w i - v₁ i) +
      1 / τ * (quad n B (fun i => P i - u₁ i) -
        bilin n B (fun i => p i - u₀ i) (fun i => P i - u₁ i) +
        bilin n B (fun i => u₁ i - u₀ i - τ * v₁ i) (fun i => P i - u₁ i))) =
      quad n B (fun i => P i - u₁ i) - bilin n B (fun i => p i - u₀ i) (fun i => P i - u₁ i) +
      τ * quad n A (fun i => w i - v₁ i) +
      bilin n B (fun i => u₁ i - u₀ i - τ * v₁ i) (fun i => P i - u₁ i) := by
      field_simp; ring
    rw [e, ← hsq] at key'
    nlinarith
  have total' : N₁ ^ 2 ≤ (N₀ + σ) ^ 2 + τ * (ρ ^ 2 / 2) := by
    nlinarith [sq_nonneg (N₁ - (N₀ + σ))]
  have h5 : N₁ ≤ Real.sqrt ((N₀ + σ) ^ 2 + τ * (ρ ^ 2 / 2)) := Real.le_sqrt_of_sq_le total'
  refine h5.trans ((sqrt_add_le hN₀0 hσ0 (by positivity)).trans (le_of_eq ?_))
  rw [hσd]; ring

theorem real_step {N₀ N₁ τ T ρ K cv : ℝ} (h0 : 0 ≤ N₀) (h1 : 0 ≤ N₁) (hτ : 0 < τ) (hT : τ ≤ T)
    (hρ : 0 ≤ ρ) (hcv : 0 ≤ cv)
    (h : N₁ ≤ Real.sqrt (N₀ ^ 2 + τ * (ρ ^ 2 / 2)) + τ * (cv * τ / 2)) (hK : ρ ≤ τ * (K * (1 + N₀))) :
    N₁ ^ 2 ≤ (1 + (1 + (1 + T) * (1 + T ^ 2) * (K ^ 2 + cv ^ 2)) * τ) * N₀ ^ 2 +
      (1 + (1 + T) * (1 + T ^ 2) * (K ^ 2 + cv ^ 2)) * τ ^ 3 := by
  set S := Real.sqrt (N₀ ^ 2 + τ * (ρ ^ 2 / 2)) with hS
  have hS0 : 0 ≤ S := Real.sqrt_nonneg _
  have hSS : S ^ 2 = N₀ ^ 2 + τ * (ρ ^ 2 / 2) := Real.sq_sqrt (by positivity)
  have a1 : N₁ ^ 2 ≤ (S + τ * (cv * τ / 2)) ^ 2 := pow_le_pow_left₀ h1 h 2
  have a2 : (S + τ * (cv * τ / 2)) ^ 2 ≤ (1 + τ) * S ^ 2 + (1 + τ) * (τ ^ 3 * cv ^ 2 / 4) := by
    have : 0 ≤ τ * (S - τ * cv / 2) ^ 2 := by positivity
    nlinarith
  have a3 : ρ ^ 2 ≤ (τ * (K * (1 + N₀))) ^ 2 := pow_le_pow_left₀ hρ hK 2
  have a4 : (1 + N₀) ^ 2 ≤ 2 * (1 + N₀ ^ 2) := by nlinarith [sq_nonneg (1 - N₀)]
  have a5 : τ * (ρ ^ 2 / 2) ≤ τ ^ 3 * K ^ 2 * (1 + N₀ ^ 2) := by
    have k1 : τ * (ρ ^ 2 / 2) ≤ τ * ((τ * (K * (1 + N₀))) ^ 2 / 2) := by
      refine mul_le_mul_of_nonneg_left ?_ hτ.le; linarith
    have k2 : τ * ((τ * (K * (1 + N₀))) ^ 2 / 2) = τ ^ 3 * K ^ 2 / 2 * (1 + N₀) ^ 2 := by ring
    have k3 : τ ^ 3 * K ^ 2 / 2 * (1 + N₀) ^ 2 ≤ τ ^ 3 * K ^ 2 / 2 * (2 * (1 + N₀ ^ 2)) :=
      mul_le_mul_of_nonneg_left a4 (by positivity)
    linarith
  have a6 : (1 + τ) * S ^ 2 ≤ (1 + τ) * (N₀ ^ 2 + τ ^ 3 * K ^ 2 * (1 + N₀ ^ 2)) :=
    mul_le_mul_of_nonneg_left (by linarith) (by positivity)
  have b1 : (1 + τ) * (τ ^ 3 * K ^ 2) ≤ (1 + T) * (τ ^ 3 * K ^ 2) :=
    mul_le_mul_of_nonneg_right (by linarith) (by positivity)
  have b2 : (1 + τ) * (τ ^ 3 * cv ^ 2 / 4) ≤ (1 + T) * (τ ^ 3 * cv ^ 2 / 4) :=
    mul_le_mul_of_nonneg_right (by linarith) (by positivity)
  have hT0 : 0 ≤ T := hτ.le.trans hT
  have t2 : τ ^ 2 ≤ T ^ 2 := pow_le_pow_left₀ hτ.le hT 2
  have b3 : (1 + T) * (τ ^ 3 * K ^ 2) * N₀ ^ 2 ≤ (1 + T) * (T ^ 2 * τ * K ^ 2) * N₀ ^ 2 := by
    refine mul_le_mul_of_nonneg_right (mul_le_mul_of_nonneg_left ?_ (by positivity)) (sq_nonneg _)
    calc τ ^ 3 * K ^ 2 = τ ^ 2 * (τ * K ^ 2) := by ring
      _ ≤ T ^ 2 * (τ * K ^ 2) := mul_le_mul_of_nonneg_right t2 (by positivity)
      _ = _ := by ring
  have b4 := mul_le_mul_of_nonneg_right b1 (sq_nonneg N₀)
  have c1 : 0 ≤ (1 + T) * T ^ 2 * cv ^ 2 * τ * N₀ ^ 2 := by positivity
  have c2 : 0 ≤ (1 + T) * (K ^ 2 + cv ^ 2) * τ * N₀ ^ 2 := by positivity
  have c3 : 0 ≤ (1 + T) * T ^ 2 * (K ^ 2 + cv ^ 2) * τ ^ 3 := by positivity
  have c4 : 0 ≤ (1 + T) * cv ^ 2 * τ ^ 3 := by positivity
  have c5 : 0 ≤ τ ^ 3 := by positivity
  calc N₁ ^ 2 ≤ (1 + τ) * (N₀ ^ 2 + τ ^ 3 * K ^ 2 * (1 + N₀ ^ 2)) + (1 + τ) * (τ ^ 3 * cv ^ 2 / 4) := by
        linarith
    _ = (1 + τ) * N₀ ^ 2 + (1 + τ) * (τ ^ 3 * K ^ 2) + (1 + τ) * (τ ^ 3 * K ^ 2) * N₀ ^ 2 +
        (1 + τ) * (τ ^ 3 * cv ^ 2 / 4) := by ring
    _ ≤ (1 + τ) * N₀ ^ 2 + (1 + T) * (τ ^ 3 * K ^ 2) + (1 + T) * (T ^ 2 * τ * K ^ 2) * N₀ ^ 2 +
        (1 + T) * (τ ^ 3 * cv ^ 2 / 4) := by linarith
    _ ≤ _ := by nlinarith

namespace Spec.PiezoBody
variable {b : PiezoBody}

theorem Moves.balanced {f φ u v : ℕ → ℝ} (h : b.Moves f φ u v) (a : ℕ → ℝ) :
    Balanced b.n b.D (fun _ _ => 0) b.viscosity b.elasticity b.contact
      (fun r => f r - act b.N (fun r p => b.coupling p r) φ r) u v a := fun y hy => by
  refine (h y hy).trans (le_of_eq ?_)
  congr 1
  refine Finset.sum_congr rfl fun r _ => ?_
  rw [act_zero_matrix]; ring

/-- Two balances of forces. -/
theorem Moves.sub {f φ u v f' φ' u' v' : ℕ → ℝ} (hv : Still b.n b.D v) (hv' : Still b.n b.D v')
    (h : b.Moves f φ u v) (h' : b.Moves f' φ' u' v') :
    quad b.n b.viscosity (fun i => v i - v' i) +
      bilin b.n b.elasticity (fun i => v i - v' i) (fun i => u i - u' i) +
      b.work (fun p => φ p - φ' p) (fun i => v i - v' i) ≤
    ∑ r ∈ Finset.range b.n, (v r - v' r) * (f r - f' r) := by
  have key := balanced_difference hv hv' (h.balanced fun _ => 0) (h'.balanced fun _ => 0)
  rw [bilin_zero_matrix] at key
  rw [work_eq]
  have e : ∑ r ∈ Finset.range b.n, (v r - v' r) * (f r - act b.N (fun r p => b.coupling p r) φ r -
      (f' r - act b.N (fun r p => b.coupling p r) φ' r)) =
      ∑ r ∈ Finset.range b.n, (v r - v' r) * (f r - f' r) -
      ∑ r ∈ Finset.range b.n, (v r - v' r) *
        act b.N (fun r p => b.coupling p r) (fun p => φ p - φ' p) r := by
    rw [← Finset.sum_sub_distrib]
    exact Finset.sum_congr rfl fun r _ => by rw [act_difference]; ring
  rw [e] at key
  linarith

/-- Two passes: the velocities differ by what the potentials differ. -/
theorem Pass.velocity {f u x w y x' w' y' : ℕ → ℝ} {τ : ℝ} (h : b.Pass f τ u x w y)
    (h' : b.Pass f τ u x' w' y') :
    b.stepPower τ (fun i => w i - w' i) ≤ -b.work (fun p => x p - x' p) (fun i => w i - w' i) := by
  have key := h.moves.sub h.held h'.held h'.moves
  have e2 : (fun i => u i + τ * w i - (u i + τ * w' i)) = fun i => τ * (w i - w' i) := by
    funext i; ring
  simp only [sub_self, mul_zero, Finset.sum_const_zero] at key
  rw [e2, bilin_smul_right, ← quad_eq_bilin] at key
  unfold stepPower
  linarith

/-- Two passes: the potentials differ by what the velocities differ. -/
theorem Pass.potential {f u x w y x' w' y' : ℕ → ℝ} {τ : ℝ} (h : b.Pass f τ u x w y)
    (h' : b.Pass f τ u x' w' y') :
    quad b.N b.permittivity (fun p => y p - y' p) =
      τ * b.work (fun p => y p - y' p) (fun i => w i - w' i) := by
  have key := (h.charged.sub h'.charged).energy
  have e2 : (fun i => u i + τ * w i - (u i + τ * w' i)) = fun i => τ * (w i - w' i) := by
    funext i; ring
  rw [key, e2, work_smul_right]

theorem Sound.stepPower_nonneg (h : b.Sound) {τ : ℝ} (hτ : 0 < τ) (x : ℕ → ℝ) : 0 ≤ b.stepPower τ x := by
  have h2 := h.viscosity.nonneg x
  have h3 := h.elasticity.nonneg x
  unfold stepPower
  positivity

/-- How much two passes differ. -/
theorem Pass.contracts (hb : b.Sound) {f u x w y x' w' y' : ℕ → ℝ} {τ q : ℝ}
    (hτ : 0 < τ) (hq : 0 ≤ q) (hcoup : b.Coupling τ q) (h : b.Pass f τ u x w y)
    (h' : b.Pass f τ u x' w' y') (hx : Still b.N b.D' fun p => x p - x' p) :
    τ * b.stepPower τ (fun i => w i - w' i) ≤ q * quad b.N b.permittivity (fun p => x p - x' p) ∧
    quad b.N b.permittivity (fun p => y p - y' p) ≤ q * (τ * b.stepPower τ (fun i => w i - w' i)) := by
  have hw := still_sub h.held h'.held
  have h0 := mul_nonneg hτ.le (hb.stepPower_nonneg hτ fun i => w i - w' i)
  constructor
  · refine le_of_sq_le h0 (hb.permittivity.nonneg _) hq
      (mul_le_mul_of_nonneg_left (h.velocity h') hτ.le) ?_
    have := mul_le_mul_of_nonneg_left (hcoup _ _ hw hx) hτ.le
    calc (τ * -b.work (fun p => x p - x' p) fun i => w i - w' i) ^ 2 =
        τ * (τ * b.work (fun p => x p - x' p) (fun i => w i - w' i) ^ 2) := by ring
      _ ≤ _ := this
      _ = _ := by ring
  · refine le_of_sq_le (hb.permittivity.nonneg _) h0 hq (h.potential h').le ?_
    have := mul_le_mul_of_nonneg_left (hcoup _ _ hw (h.charged.sub h'.charged).still) hτ.le
    calc (τ * b.work (fun p => y p - y' p) fun i => w i - w' i) ^ 2 =
        τ * (τ * b.work (fun p => y p - y' p) (fun i => w i - w' i) ^ 2) := by ring
      _ ≤ _ := this
      _ = _ := by ring

/-- The coupling is bounded. -/
theorem Sound.work_le (h : b.Sound) : ∃ c, 0 ≤ c ∧ ∀ x y, Still b.n b.D x → Still b.N b.D' y →
    |b.work y x| ≤ c * Real.sqrt (quad b.N b.permittivity y) * Real.sqrt (quad b.n b.viscosity x) := by
  obtain ⟨c1, h1, hc1⟩ := entry_le h.viscosity h.viscous
  obtain ⟨c2, h2, hc2⟩ := entry_le h.permittivity h.grounded
  refine ⟨∑ p ∈ Finset.range b.N, ∑ r ∈ Finset.range b.n, |b.coupling p r| * (c1 * c2),
    Finset.sum_nonneg fun _ _ => Finset.sum_nonneg fun _ _ => by positivity, fun x y hx hy => ?_⟩
  unfold work act
  simp only [Finset.mul_sum, Finset.sum_mul]
  refine (Finset.abs_sum_le_sum_abs _ _).trans (Finset.sum_le_sum fun p hp => ?_)
  refine (Finset.abs_sum_le_sum_abs _ _).trans (Finset.sum_le_sum fun r hr => ?_)
  have k1 := hc1 x hx r (Finset.mem_range.1 hr)
  have k2 := hc2 y hy p (Finset.mem_range.1 hp)
  calc |y p * (b.coupling p r * x r)| = |b.coupling p r| * (|y p| * |x r|) := by
        rw [abs_mul, abs_mul]; ring
    _ ≤ |b.coupling p r| * ((c2 * Real.sqrt (quad b.N b.permittivity y)) *
          (c1 * Real.sqrt (quad b.n b.viscosity x))) :=
        mul_le_mul_of_nonneg_left (mul_le_mul k2 k1 (abs_nonneg _) (by positivity)) (abs_nonneg _)
    _ = _ := by ring

/-- Any potential does bounded work. -/
theorem Sound.work_bounded (h : b.Sound) (y : ℕ → ℝ) : ∃ d, 0 ≤ d ∧ ∀ x, Still b.n b.D x →
    |b.work y x| ≤ d * Real.sqrt (quad b.n b.viscosity x) := by
  obtain ⟨c1, h1, hc1⟩ := entry_le h.viscosity h.viscous
  refine ⟨∑ p ∈ Finset.range b.N, ∑ r ∈ Finset.range b.n, |b.coupling p r| * (c1 * |y p|),
    Finset.sum_nonneg fun _ _ => Finset.sum_nonneg fun _ _ => by positivity, fun x hx => ?_⟩
  unfold work act
  simp only [Finset.mul_sum, Finset.sum_mul]
  refine (Finset.abs_sum_le_sum_abs _ _).trans (Finset.sum_le_sum fun p hp => ?_)
  refine (Finset.abs_sum_le_sum_abs _ _).trans (Finset.sum_le_sum fun r hr => ?_)
  have k1 := hc1 x hx r (Finset.mem_range.1 hr)
  calc |y p * (b.coupling p r * x r)| = |b.coupling p r| * (|y p| * |x r|) := by
        rw [abs_mul, abs_mul]; ring
    _ ≤ |b.coupling p r| * (|y p| * (c1 * Real.sqrt (quad b.n b.viscosity x))) :=
        mul_le_mul_of_nonneg_left (mul_le_mul_of_nonneg_left k1 (abs_nonneg _)) (abs_nonneg _)
    _ = _ := by ring

/-- Short time steps couple displacement and potential weakly. -/
theorem Sound.coupling (h : b.Sound) {q : ℝ} (hq : 0 < q) :
    ∃ τ₀, 0 < τ₀ ∧ ∀ τ, 0 < τ → τ ≤ τ₀ → b.Coupling τ q := by
  obtain ⟨c, hc0, hc⟩ := h.work_le
  refine ⟨q / (c ^ 2 + 1), by positivity, fun τ h0 h1 x y hx hy => ?_⟩
  have k1 := hc x y hx hy
  have k2 : τ * (c ^ 2 + 1) ≤ q := (le_div_iff₀ (by positivity)).1 h1
  have m0 := h.viscosity.nonneg x
  have m1 := h.permittivity.nonneg y
  have s1 : quad b.n b.viscosity x ≤ b.stepPower τ x := by
    have := mul_nonneg h0.le (h.elasticity.nonneg x)
    unfold stepPower; linarith
  have k3 : b.work y x ^ 2 ≤ c ^ 2 * quad b.N b.permittivity y * quad b.n b.viscosity x := by
    calc b.work y x ^ 2 = |b.work y x| ^ 2 := (sq_abs _).symm
      _ ≤ (c * Real.sqrt (quad b.N b.permittivity y) * Real.sqrt (quad b.n b.viscosity x)) ^ 2 :=
          pow_le_pow_left₀ (abs_nonneg _) k1 2
      _ = _ := by rw [mul_pow, mul_pow, Real.sq_sqrt m0, Real.sq_sqrt m1]
  calc τ * b.work y x ^ 2 ≤ τ * (c ^ 2 * quad b.N b.permittivity y * quad b.n b.viscosity x) :=
        mul_le_mul_of_nonneg_left k3 h0.le
    _ = τ * c ^ 2 * (quad b.N b.permittivity y * quad b.n b.viscosity x) := by ring
    _ ≤ q * (quad b.N b.permittivity y * quad b.n b.viscosity x) :=
        mul_le_mul_of_nonneg_right (by nlinarith) (by positivity)
    _ ≤ q * (quad b.N b.permittivity y * b.stepPower τ x) :=
        mul_le_mul_of_nonneg_left (mul_le_mul_of_nonneg_left s1 m1) hq.le
    _ = _ := by ring

end Spec.PiezoBody
end Conmech
