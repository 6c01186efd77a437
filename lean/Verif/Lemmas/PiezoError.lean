import Verif.Lemmas.PiezoStep
/-!
The error of a time step of a piezoelectric body whose passes are ended early.
-/
namespace Conmech
open Spec

theorem le_of_mul_self_le {x y : ℝ} (hx : 0 ≤ x) (hy : 0 ≤ y) (h : x ^ 2 ≤ y * x) : x ≤ y := by
  rcases hx.eq_or_lt with h0 | h0
  · rw [← h0]; exact hy
  · exact le_of_mul_le_mul_right (by nlinarith) h0

theorem real_bound {e c d S V T N₀ σ τ W₁ W₂ : ℝ} (he : 0 ≤ e) (hc : 0 ≤ c) (hd : 0 ≤ d)
    (hS : 0 ≤ S) (hV : 0 ≤ V) (hN : 0 ≤ N₀) (hσ : σ ≤ S) (hτ : 0 ≤ τ) (hτT : τ ≤ T) (hW : 0 ≤ W₁)
    (h1 : W₁ ≤ e * (N₀ + σ) + (d + c * (N₀ + (τ * V + σ))))
    (h2 : W₂ ≤ e * (N₀ + σ) + c * (N₀ + σ + τ * (e * W₁))) :
    W₁ + W₂ ≤ ((e * (1 + S) + (d + c * (1 + (T * V + S)))) + (e * (1 + S) +
      c * (1 + S + T * (e * (e * (1 + S) + (d + c * (1 + (T * V + S)))))))) * (1 + N₀) := by
  have hT : 0 ≤ T := hτ.trans hτT
  set w := e * (1 + S) + (d + c * (1 + (T * V + S))) with hw
  have hw0 : 0 ≤ w := by positivity
  have a1 : τ * V ≤ T * V := mul_le_mul_of_nonneg_right hτT hV
  have b1 : N₀ + σ ≤ (1 + S) * (1 + N₀) := by nlinarith
  have b2 : N₀ + (τ * V + σ) ≤ (1 + (T * V + S)) * (1 + N₀) := by
    have : 0 ≤ T * V := by positivity
    nlinarith
  have b3 : d ≤ d * (1 + N₀) := by nlinarith
  have k1 : W₁ ≤ w * (1 + N₀) := by
    have := mul_le_mul_of_nonneg_left b1 he
    have := mul_le_mul_of_nonneg_left b2 hc
    rw [hw]; nlinarith
  have k2 : τ * (e * W₁) ≤ T * (e * w) * (1 + N₀) := by
    calc τ * (e * W₁) ≤ T * (e * (w * (1 + N₀))) :=
          mul_le_mul hτT (mul_le_mul_of_nonneg_left k1 he) (by positivity) hT
      _ = _ := by ring
  have k3 : W₂ ≤ (e * (1 + S) + c * (1 + S + T * (e * w))) * (1 + N₀) := by
    have := mul_le_mul_of_nonneg_left b1 he
    have := mul_le_mul_of_nonneg_left (add_le_add b1 k2) hc
    nlinarith
  linarith

namespace Spec.PiezoBody
variable {b : PiezoBody}

theorem Answers.le (hb : b.Sound) {u ψ : ℕ → ℝ} (h : b.Answers u ψ) :
    Real.sqrt (quad b.N b.permittivity ψ) ≤ Real.sqrt (quad b.n hb.stiffness u) := by
  refine Real.sqrt_le_sqrt ?_
  rw [hb.quad_stiffness, quad_congr (h.unique hb (hb.answers u))]
  have := hb.elasticity.nonneg u
  linarith

theorem Sound.elasticity_le (hb : b.Sound) (u : ℕ → ℝ) :
    Real.sqrt (quad b.n b.elasticity u) ≤ Real.sqrt (quad b.n hb.stiffness u) := by
  refine Real.sqrt_le_sqrt ?_
  rw [hb.quad_stiffness]
  have := hb.permittivity.nonneg (act b.n hb.answer u)
  linarith

/-- Two passes, in terms of norms. -/
theorem Pass.norms (hb : b.Sound) {c : ℝ} (hc0 : 0 ≤ c)
    (hc : ∀ x y, Still b.n b.D x → Still b.N b.D' y →
      |b.work y x| ≤ c * Real.sqrt (quad b.N b.permittivity y) * Real.sqrt (quad b.n b.viscosity x))
    {f u x w y x' w' y' : ℕ → ℝ} {τ : ℝ} (hτ : 0 < τ) (h : b.Pass f τ u x w y) (h' : b.Pass f τ u x' w' y') :
    Real.sqrt (quad b.N b.permittivity fun p => y p - y' p) ≤
      τ * c * Real.sqrt (quad b.n b.viscosity fun i => w i - w' i) ∧
    (Still b.N b.D' (fun p => x p - x' p) →
      Real.sqrt (quad b.n b.viscosity fun i => w i - w' i) ≤
        c * Real.sqrt (quad b.N b.permittivity fun p => x p - x' p)) := by
  have hw := still_sub h.held h'.held
  have q0 := hb.viscosity.nonneg fun i => w i - w' i
  have q1 := hb.permittivity.nonneg fun p => y p - y' p
  constructor
  · refine le_of_mul_self_le (Real.sqrt_nonneg _) (by positivity) ?_
    rw [Real.sq_sqrt q1]
    refine (h.potential h').le.trans ?_
    have := (le_abs_self _).trans (hc _ _ hw (h.charged.sub h'.charged).still)
    refine (mul_le_mul_of_nonneg_left this hτ.le).trans (le_of_eq (by ring))
  · intro hx
    refine le_of_mul_self_le (Real.sqrt_nonneg _) (by positivity) ?_
    rw [Real.sq_sqrt q0]
    have k1 := h.velocity h'
    have k2 : quad b.n b.viscosity (fun i => w i - w' i) ≤ b.stepPower τ fun i => w i - w' i := by
      have := mul_nonneg hτ.le (hb.elasticity.nonneg fun i => w i - w' i)
      unfold stepPower; linarith
    have k3 := (neg_le_abs _).trans (hc _ _ hw hx)
    linarith

/-- The velocity of a pass, compared with the one of the motion. -/
theorem Pass.velocity_error (hb : b.Sound) {e X N₀ σ τ : ℝ} (hτ : 0 < τ) (he : 0 ≤ e) (hX : 0 ≤ X)
    (hN : 0 ≤ N₀) (hσ0 : 0 ≤ σ)
    (hebound : ∀ x, Still b.n b.D x →
      Real.sqrt (quad b.n hb.stiffness x) ≤ e * Real.sqrt (quad b.n b.viscosity x))
    {f p x w y u₀ u₁ v₁ φ₁ : ℕ → ℝ} (h : b.Pass f τ p x w y) (hv : Still b.n b.D v₁)
    (hm : b.Moves f φ₁ u₁ v₁) (h0 : Real.sqrt (quad b.n hb.stiffness fun i => p i - u₀ i) ≤ N₀)
    (h1 : Real.sqrt (quad b.n hb.stiffness fun i => u₁ i - u₀ i - τ * v₁ i) ≤ σ)
    (hx : ∀ z, Still b.n b.D z →
      |b.work (fun q => x q - φ₁ q) z| ≤ X * Real.sqrt (quad b.n b.viscosity z)) :
    Real.sqrt (quad b.n b.viscosity fun i => w i - v₁ i) ≤ e * (N₀ + σ) + X ∧
    Real.sqrt (quad b.n hb.stiffness fun i => p i + τ * w i - u₁ i) ≤
      N₀ + σ + τ * (e * Real.sqrt (quad b.n b.viscosity fun i => w i - v₁ i)) := by
  have hw := still_sub h.held hv
  set z : ℕ → ℝ := fun i => w i - v₁ i with hz
  set r : ℕ → ℝ := fun i => p i - u₀ i - (u₁ i - u₀ i - τ * v₁ i) with hr
  have er : (fun i => p i + τ * w i - u₁ i) = fun i => r i + τ * z i := by
    funext i; simp only [hr, hz]; ring
  have hrn : Real.sqrt (quad b.n hb.stiffness r) ≤ N₀ + σ := by
    have e1 : r = fun i => (p i - u₀ i) + (-1) * (u₁ i - u₀ i - τ * v₁ i) := by
      funext i; simp only [hr]; ring
    rw [e1]
    refine (sqrt_quad_add hb.storesStiffness _ _).trans (add_le_add h0 ?_)
    rw [quad_scaled]
    simpa using h1
  constructor
  · refine le_of_mul_self_le (Real.sqrt_nonneg _) (by positivity) ?_
    rw [Real.sq_sqrt (hb.viscosity.nonneg z)]
    have key := h.moves.sub h.held hv hm
    simp only [sub_self, mul_zero, Finset.sum_const_zero] at key
    rw [er, bilin_add_right, bilin_smul_right, ← quad_eq_bilin] at key
    have k1 := mul_nonneg hτ.le (hb.elasticity.nonneg z)
    have k2 := (neg_le_abs _).trans (hx z hw)
    have k3 : -bilin b.n b.elasticity z r ≤
        Real.sqrt (quad b.n b.elasticity z) * Real.sqrt (quad b.n b.elasticity r) := by
      have := bilin_le_sqrt hb.elasticity (fun i => (-1) * z i) r
      rw [bilin_smul_left, quad_scaled] at this
      simpa using this
    have k4 : Real.sqrt (quad b.n b.elasticity z) * Real.sqrt (quad b.n b.elasticity r) ≤
        (e * Real.sqrt (quad b.n b.viscosity z)) * (N₀ + σ) :=
      mul_le_mul ((hb.elasticity_le z).trans (hebound z hw)) ((hb.elasticity_le r).trans hrn)
        (Real.sqrt_nonneg _) (by positivity)
    nlinarith
  · rw [er]
    refine (sqrt_quad_add hb.storesStiffness _ _).trans (add_le_add hrn ?_)
    rw [quad_scaled, Real.sqrt_mul (sq_nonneg _), Real.sqrt_sq hτ.le]
    exact mul_le_mul_of_nonneg_left (hebound z hw) hτ.le

/-- The error of a time step: the square of the error grows by a factor close to one and by a multiple of
the third power of the time step. -/
theorem Sound.step_error (hb : b.Sound) {f : ℝ → ℕ → ℝ} {T : ℝ} {u v φ : ℝ → ℕ → ℝ}
    (hm : b.Motion f T u v φ) {cv cf : ℝ}
    (hmod : ModerateCreep b.n b.D b.viscosity hb.stiffness (hb.loads f) 0 T v cv cf) {d : ℝ} (hd : 0 ≤ d) :
    ∃ K, 0 ≤ K ∧ ∀ (τ t : ℝ) (p : ℕ → ℝ) (m : ℕ) (x w : ℕ → ℕ → ℝ), 0 < τ → 0 ≤ t → t + τ ≤ T →
      2 ≤ m → m ≤ 10 → (∀ i < m, b.Pass (f (t + τ)) τ p (x i) (w (i + 1)) (x (i + 1))) →
      (∀ z, Still b.n b.D z →
        |b.work (fun q => x 0 q - hb.potential p q) z| ≤ d * Real.sqrt (quad b.n b.viscosity z)) →
      strainDistance b.n hb.stiffness (fun i => p i + τ * w m i) (u (t + τ)) ^ 2 ≤
        (1 + K * τ) * strainDistance b.n hb.stiffness p (u t) ^ 2 + K * τ ^ 3 := by
  obtain ⟨n1, n2⟩ := hmod.nonneg
  obtain ⟨c, hc0, hc⟩ := hb.work_le
  obtain ⟨k, hk0, hk⟩ := quad_le hb.viscosity hb.viscous hb.stiffness
  set e := Real.sqrt k with hed
  have he : 0 ≤ e := Real.sqrt_nonneg _
  have hebound : ∀ x, Still b.n b.D x →
      Real.sqrt (quad b.n hb.stiffness x) ≤ e * Real.sqrt (quad b.n b.viscosity x) := fun x hx => by
    rw [hed, ← Real.sqrt_mul hk0]
    exact Real.sqrt_le_sqrt (hk x hx)
  have hcr := (hb.motion_iff hm.charged).1 hm
  set V := Real.sqrt (quad b.n hb.stiffness (v 0)) + cv * |T| with hV
  have hV0 : 0 ≤ V := by positivity
  set S := cv * T ^ 2 / 2 with hS
  have hS0 : 0 ≤ S := by positivity
  set K₀ := (e * (1 + S) + (d + c * (1 + (T * V + S)))) + (e * (1 + S) +
      c * (1 + S + T * (e * (e * (1 + S) + (d + c * (1 + (T * V + S))))))) with hK₀
  set L := 1 + T * c ^ 2 with hL
  set K₁ := c * (L ^ 10 * (c * K₀)) with hK₁
  refine ⟨|1 + (1 + T) * (1 + T ^ 2) * (K₁ ^ 2 + cv ^ 2)|, abs_nonneg _,
    fun τ t p m x w hτ ht htT m2 m10 hp hx0 => ?_⟩
  have hτT : τ ≤ T := by linarith
  have hT0 : 0 ≤ T := by linarith
  have m0 : t ∈ Set.Icc 0 T := ⟨ht, by linarith⟩
  have m1 : t + τ ∈ Set.Icc 0 T := ⟨by linarith, htT⟩
  rw [abs_of_nonneg (by positivity)]
  set σ := cv * τ ^ 2 / 2 with hσ
  have hσ0 : 0 ≤ σ := by positivity
  have hσS : σ ≤ S := by
    rw [hσ, hS]
    have := mul_le_mul_of_nonneg_left (pow_le_pow_left₀ hτ.le hτT 2) n1
    linarith
  have hback : Real.sqrt (quad b.n hb.stiffness fun i => u (t + τ) i - u t i - τ * v (t + τ) i) ≤ σ :=
    Real.sqrt_le_iff.2 ⟨hσ0,
      backward_difference hb.storesStiffness hcr.velocity n1 hmod.velocity hτ.le m0 m1⟩
  set N₀ := strainDistance b.n hb.stiffness p (u t) with hN₀
  have hN0 : 0 ≤ N₀ := Real.sqrt_nonneg _
  have hv1 : Real.sqrt (quad b.n hb.stiffness (v (t + τ))) ≤ V := by
    have k1 := sqrt_quad_add hb.storesStiffness (fun i => v (t + τ) i - v 0 i) (v 0)
    simp only [sub_add_cancel] at k1
    have k2 : Real.sqrt (quad b.n hb.stiffness fun i => v (t + τ) i - v 0 i) ≤ cv * |T| := by
      refine Real.sqrt_le_iff.2 ⟨by positivity, (hmod.velocity _ m1 0 ⟨le_rfl, hT0⟩).trans ?_⟩
      rw [sub_zero, abs_of_nonneg hT0]
      exact pow_le_pow_left₀ (mul_nonneg n1 m1.1) (mul_le_mul_of_nonneg_left m1.2 n1) 2
    rw [hV]; linarith
  have hmove := hm.moves _ m1
  have hheld := hm.held _ m1
  -- the first velocity
  have hx0' : ∀ z, Still b.n b.D z → |b.work (fun q => x 0 q - φ (t + τ) q) z| ≤
      (d + c * (N₀ + (τ * V + σ))) * Real.sqrt (quad b.n b.viscosity z) := by
    intro z hz
    have hans := (hb.charged p).sub (hm.charged _ m1)
    have k1 := hx0 z hz
    have k2 := hc z _ hz hans.still
    have k3 := hans.le hb
    have k4 : Real.sqrt (quad b.n hb.stiffness fun i => p i - u (t + τ) i) ≤ N₀ + (τ * V + σ) := by
      have j1 := sqrt_quad_triangle hb.storesStiffness p (u t) (u (t + τ))
      have j2 : Real.sqrt (quad b.n hb.stiffness fun i => u t i - u (t + τ) i) ≤ τ * V + σ := by
        rw [quad_swap, show (fun i => u (t + τ) i - u t i) = fun i => τ * v (t + τ) i +
          (u (t + τ) i - u t i - τ * v (t + τ) i) by funext i; ring]
        refine (sqrt_quad_add hb.storesStiffness _ _).trans (add_le_add ?_ hback)
        rw [quad_scaled, Real.sqrt_mul (sq_nonneg _), Real.sqrt_sq hτ.le]
        exact mul_le_mul_of_nonneg_left hv1 hτ.le
      exact j1.trans (add_le_add le_rfl j2)
    have e1 : b.work (fun q => x 0 q - φ (t + τ) q) z =
        b.work (fun q => x 0 q - hb.potential p q) z +
        b.work (fun q => hb.potential p q - φ (t + τ) q) z := by
      simp only [work_sub_left]; ring
    rw [e1]
    refine (abs_add_le _ _).trans ?_
    have k5 : c * Real.sqrt (quad b.N b.permittivity fun q => hb.potential p q - φ (t + τ) q) ≤
        c * (N₀ + (τ * V + σ)) := mul_le_mul_of_nonneg_left (k3.trans k4) hc0
    have k6 := mul_le_mul_of_nonneg_right k5 (Real.sqrt_nonneg (quad b.n b.viscosity z))
    linarith
  have hp0 := hp 0 (by omega)
  have hp1 := hp 1 (by omega)
  obtain ⟨w1, s1⟩ := hp0.velocity_error hb hτ he (by positivity) hN0 hσ0 hebound hheld hmove le_rfl hback hx0'
  set W₁ := Real.sqrt (quad b.n b.viscosity fun i => w (0 + 1) i - v (t + τ) i) with hW₁
  have hW₁0 : 0 ≤ W₁ := Real.sqrt_nonneg _
  -- the second velocity
  have hx1' : ∀ z, Still b.n b.D z → |b.work (fun q => x 1 q - φ (t + τ) q) z| ≤
      (c * (N₀ + σ + τ * (e * W₁))) * Real.sqrt (quad b.n b.viscosity z) := by
    intro z hz
    have hans := hp0.charged.sub (hm.charged _ m1)
    refine (hc z _ hz hans.still).trans (mul_le_mul_of_nonneg_right ?_ (Real.sqrt_nonneg _))
    exact mul_le_mul_of_nonneg_left ((hans.le hb).trans s1) hc0
  obtain ⟨w2, -⟩ := hp1.velocity_error hb hτ he (by positivity) hN0 hσ0 hebound hheld hmove le_rfl hback hx1'
  set W₂ := Real.sqrt (quad b.n b.viscosity fun i => w (1 + 1) i - v (t + τ) i) with hW₂
  have hW := real_bound he hc0 hd hS0 hV0 hN0 hσS hτ.le hτT hW₁0 w1 w2
  -- the potentials of the passes
  have hL1 : 1 ≤ L := by
    have : 0 ≤ T * c ^ 2 := by positivity
    rw [hL]; linarith
  have hτL : τ * c ^ 2 ≤ L := by
    have := mul_le_mul_of_nonneg_right hτT (sq_nonneg c)
    rw [hL]; linarith
  have hchain : ∀ i, i + 2 ≤ m →
      Real.sqrt (quad b.N b.permittivity fun q => x (i + 2) q - x (i + 1) q) ≤
        L ^ i * (τ * c * (W₁ + W₂)) := by
    intro i
    induction i with
    | zero =>
      intro _
      rw [pow_zero, one_mul]
      refine ((hp1.norms hb hc0 hc hτ hp0).1).trans (mul_le_mul_of_nonneg_left ?_ (by positivity))
      have := sqrt_quad_triangle hb.viscosity (w (1 + 1)) (v (t + τ)) (w (0 + 1))
      rw [quad_swap b.viscosity (v (t + τ)) (w (0 + 1))] at this
      linarith
    | succ i ih =>
      intro hi
      have h1 := ih (by omega)
      have h2 := (hp (i + 2) (by omega)).norms hb hc0 hc hτ (hp (i + 1) (by omega))
      have hst := ((hp (i + 1) (by omega)).charged.sub (hp i (by omega)).charged).still
      have h3 := h2.1
      have h4 := h2.2 hst
      calc Real.sqrt (quad b.N b.permittivity fun q => x (i + 1 + 2) q - x (i + 1 + 1) q) ≤
          τ * c * (c * Real.sqrt (quad b.N b.permittivity fun q => x (i + 2) q - x (i + 1) q)) :=
            h3.trans (mul_le_mul_of_nonneg_left h4 (by positivity))
        _ = τ * c ^ 2 * Real.sqrt (quad b.N b.permittivity fun q => x (i + 2) q - x (i + 1) q) := by ring
        _ ≤ L * (L ^ i * (τ * c * (W₁ + W₂))) :=
            mul_le_mul hτL h1 (Real.sqrt_nonneg _) (by linarith)
        _ = _ := by rw [pow_succ]; ring
  obtain ⟨j, rfl⟩ : ∃ j, m = j + 2 := ⟨m - 2, by omega⟩
  have hlast := hchain j (by omega)
  have hW₂0 : 0 ≤ W₂ := Real.sqrt_nonneg _
  have hlast' : Real.sqrt (quad b.N b.permittivity fun q => x (j + 2) q - x (j + 1) q) ≤
      τ * (L ^ 10 * (c * K₀) * (1 + N₀)) := by
    have k1 : L ^ j ≤ L ^ 10 := pow_le_pow_right₀ hL1 (by omega)
    calc _ ≤ L ^ j * (τ * c * (W₁ + W₂)) := hlast
      _ ≤ L ^ 10 * (τ * c * (K₀ * (1 + N₀))) :=
          mul_le_mul k1 (mul_le_mul_of_nonneg_left hW (by positivity)) (by positivity) (by positivity)
      _ = _ := by ring
  have hpm := hp (j + 1) (by omega)
  have hpm' := hp j (by omega)
  -- the last velocity balances disturbed loads
  set F : ℕ → ℝ := fun r => hb.loads f (t + τ) r +
    act b.N (fun r p => b.coupling p r) (fun q => x (j + 2) q - x (j + 1) q) r with hF
  have hbal : Balanced b.n b.D (fun _ _ => 0) b.viscosity hb.stiffness b.contact F
      (fun i => p i + τ * w (j + 2) i) (w (j + 2)) fun _ => 0 := by
    intro y hy
    refine (hpm.moves y hy).trans (le_of_eq ?_)
    congr 1
    refine Finset.sum_congr rfl fun r _ => ?_
    congr 1
    have k1 := hb.forces hpm.charged r
    rw [act_zero_matrix]
    simp only [hF, Sound.loads]
    rw [act_difference]
    linarith
  have hstep := creep_step_disturbed ⟨hb.viscosity.nonneg⟩ hb.storesStiffness hcr hmod
    (ρ := τ * (K₁ * (1 + N₀))) hτ ht htT hpm.held
    (fun z hz => by
      have e1 : ∑ r ∈ Finset.range b.n, z r * (F r - hb.loads f (t + τ) r) =
          b.work (fun q => x (j + 2) q - x (j + 1) q) z := by
        rw [work_eq]
        exact Finset.sum_congr rfl fun r _ => by simp only [hF, add_sub_cancel_left]
      rw [e1]
      refine (hc z _ hz (hpm.charged.sub hpm'.charged).still).trans
        (mul_le_mul_of_nonneg_right ?_ (Real.sqrt_nonneg _))
      refine (mul_le_mul_of_nonneg_left hlast' hc0).trans (le_of_eq ?_)
      rw [hK₁]; ring) hbal
  have hK00 : 0 ≤ K₁ := by
    have : 0 ≤ K₀ := by positivity
    positivity
  exact real_step hN0 (Real.sqrt_nonneg _) hτ hτT (by positivity) n1 hstep le_rfl

end Spec.PiezoBody
end Conmech
