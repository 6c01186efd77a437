import Verif.Props.Creep
import Verif.Spec.StiffLimit
/-!
Least energy with a large penalty, and under a constraint.
-/
namespace Conmech
open Spec

variable {n : ℕ} {D : ℕ → Prop} {g : ℕ → ℝ}

/-- The greatest of the first `n` entries. -/
noncomputable def fieldSize (n : ℕ) (e : ℕ → ℝ) : ℝ := ‖fun r : Fin n => e r‖

theorem fieldSize_nonneg (n : ℕ) (e : ℕ → ℝ) : 0 ≤ fieldSize n e := norm_nonneg _

theorem le_fieldSize {n r : ℕ} (hr : r < n) (e : ℕ → ℝ) : |e r| ≤ fieldSize n e :=
  norm_le_pi_norm (fun r : Fin n => e r) ⟨r, hr⟩

theorem fieldSize_le {n : ℕ} {e : ℕ → ℝ} {b : ℝ} (hb : 0 ≤ b) (h : ∀ r < n, |e r| ≤ b) : fieldSize n e ≤ b :=
  (pi_norm_le_iff_of_nonneg hb).2 fun r => h r r.2

theorem fieldSize_sq {A : ℕ → ℕ → ℝ} (hA : StoresEnergy n A) (hdef : DefiniteOn n D A) :
    ∃ c, 0 < c ∧ ∀ e, Still n D e → fieldSize n e ^ 2 ≤ c * quad n A e := by
  obtain ⟨c, hc, h⟩ := exists_coercive hA hdef
  refine ⟨c + 1, by linarith, fun e he => ?_⟩
  have hs : ∀ r < n, extendZero n (fun r : Fin n => e r) r = e r := fun r hr => by simp [extendZero, hr]
  have := h (fun r : Fin n => e r) fun r hr hD => by rw [hs r hr]; exact he r hr hD
  rw [quad_same hs] at this
  have := hA.nonneg e
  unfold fieldSize
  linarith

theorem work_le (n : ℕ) (R e : ℕ → ℝ) :
    |∑ r ∈ Finset.range n, e r * R r| ≤ (∑ r ∈ Finset.range n, |R r|) * fieldSize n e := by
  rw [Finset.sum_mul]
  refine (Finset.abs_sum_le_sum_abs _ _).trans (Finset.sum_le_sum fun r hr => ?_)
  rw [abs_mul, mul_comm]
  exact mul_le_mul_of_nonneg_left (le_fieldSize (Finset.mem_range.1 hr) e) (abs_nonneg _)

/-- The energy of a field next to `x`. -/
theorem energy_next (S : System ℝ) (hA : ∀ r < n, ∀ s < n, S.lhs r s = S.lhs s r) (x y : ℕ → ℝ) :
    energy n S y = energy n S x + ∑ r ∈ Finset.range n, (y r - x r) * (act n S.lhs x r - S.rhs r) +
      1 / 2 * quad n S.lhs (fun i => y i - x i) := by
  have := energy_expand n S hA x fun i => y i - x i
  simpa [act] using this

theorem heldTo_sub {x y : ℕ → ℝ} (hx : HeldTo n D g x) (hy : HeldTo n D g y) :
    Still n D fun i => x i - y i := fun r hr hD => by
  beta_reduce
  rw [hx r hr hD, hy r hr hD, sub_self]

/-- What the forces do on the way to another allowed field is taken up by the further cost. -/
theorem leastUnder_variational {S : System ℝ} {J : (ℕ → ℝ) → ℝ} {Z : (ℕ → ℝ) → Prop} {x : ℕ → ℝ}
    (hA : ∀ r < n, ∀ s < n, S.lhs r s = S.lhs s r) (hJ : ConvexVec J) (hx : LeastUnder n D g S J Z x)
    {y : ℕ → ℝ} (hy : HeldTo n D g y)
    (hZ : ∀ t, 0 < t → t ≤ 1 → Z fun i => (1 - t) * x i + t * y i) :
    0 ≤ ∑ r ∈ Finset.range n, (y r - x r) * (act n S.lhs x r - S.rhs r) + (J y - J x) := by
  set w := ∑ r ∈ Finset.range n, (y r - x r) * (act n S.lhs x r - S.rhs r) with hw
  set q := quad n S.lhs (fun i => y i - x i) with hq
  have key : ∀ t : ℝ, 0 < t → t ≤ 1 → 0 ≤ w + t * (1 / 2 * q) + (J y - J x) := by
    intro t h0 h1
    have h2 := hx.least (fun i => (1 - t) * x i + t * y i) (fun r hr hD => by
      beta_reduce
      rw [hx.held r hr hD, hy r hr hD]; ring) (hZ t h0 h1)
    rw [energy_next S hA x fun i => (1 - t) * x i + t * y i] at h2
    have e1 : (fun i => (1 - t) * x i + t * y i - x i) = fun i => t * (y i - x i) := by
      funext i; ring
    have e2 : ∑ r ∈ Finset.range n, ((1 - t) * x r + t * y r - x r) * (act n S.lhs x r - S.rhs r) = t * w := by
      rw [hw, Finset.mul_sum]
      exact Finset.sum_congr rfl fun r _ => by ring
    have e3 : quad n S.lhs (fun i => t * (y i - x i)) = t ^ 2 * q := by
      rw [quad_eq_bilin, bilin_smul_left, bilin_smul_right, ← quad_eq_bilin]; ring
    rw [e1, e2, e3] at h2
    have h3 := hJ x y (1 - t) t (by linarith) h0.le (by ring)
    have h4 : 0 ≤ t * (w + t * (1 / 2 * q) + (J y - J x)) := by nlinarith
    exact nonneg_of_mul_nonneg_right h4 h0
  by_contra hneg
  push Not at hneg
  rcases le_or_gt q 0 with hq0 | hq0
  · have := key 1 one_pos le_rfl
    nlinarith
  · set v := w + (J y - J x) with hv
    have hs : 0 < min 1 (-v / q) := lt_min one_pos (div_pos (by linarith) hq0)
    have h1 := key (min 1 (-v / q)) hs (min_le_left _ _)
    have h2 : min 1 (-v / q) * q ≤ -v := by
      calc min 1 (-v / q) * q ≤ -v / q * q := mul_le_mul_of_nonneg_right (min_le_right _ _) hq0.le
        _ = -v := by field_simp
    nlinarith

/-- Large penalties: fields of least energy with the penalty `α Φ` are bounded, independently of `α`; the
penalty function is at most `K / α²`, and the energy of the distance to the field of least energy among
those that are not penalised is at most `K / α`. -/
theorem penalty_estimate {S : System ℝ} (hA : StoresEnergy n S.lhs) (hdef : DefiniteOn n D S.lhs)
    {J Φ : (ℕ → ℝ) → ℝ} {Z : (ℕ → ℝ) → Prop} (hJ : ConvexVec J) {L : ℝ} (hL : 0 ≤ L)
    (hJL : ∀ x y, J x - J y ≤ L * fieldSize n fun i => x i - y i)
    {x₀ : ℕ → ℝ} (h₀ : LeastUnder n D g S J Z x₀) (hΦ0 : Φ x₀ = 0) (hΦ : ∀ y, 0 ≤ Φ y)
    (hZ : ∀ y z, Z y → Z z → ∀ t, 0 < t → t ≤ 1 → Z fun i => (1 - t) * y i + t * z i)
    (hnear : ∀ B, ∃ c, 0 < c ∧ ∀ y, HeldTo n D g y → (∀ r < n, |y r| ≤ B) →
      ∃ z δ, HeldTo n D g z ∧ Z z ∧ 0 ≤ δ ∧ c * δ ^ 2 ≤ Φ y ∧ fieldSize n (fun i => y i - z i) ≤ δ) :
    ∃ K B, 0 ≤ K ∧ 0 ≤ B ∧ ∀ α, 0 < α → ∀ x,
      HeldMinimiser n D g (fun y => energy n S y + J y + α * Φ y) x →
      (∀ r < n, |x r| ≤ B) ∧ Φ x ≤ K / α ^ 2 ∧ quad n S.lhs (fun i => x i - x₀ i) ≤ K / α := by
  obtain ⟨κ, hκ, hcoer⟩ := fieldSize_sq hA hdef
  set R : ℕ → ℝ := fun r => act n S.lhs x₀ r - S.rhs r with hR
  set ρ := ∑ r ∈ Finset.range n, |R r| with hρ
  have hρ0 : 0 ≤ ρ := Finset.sum_nonneg fun r _ => abs_nonneg _
  set B := fieldSize n x₀ + 2 * κ * (ρ + L) with hB
  have hB0 : 0 ≤ B := add_nonneg (fieldSize_nonneg _ _) (by positivity)
  obtain ⟨c, hc, hnear⟩ := hnear B
  refine ⟨max ((ρ + L) ^ 2 / c) (2 * ((ρ + L) ^ 2 / c)), B, le_max_of_le_left (by positivity), hB0,
    fun α hα x hx => ?_⟩
  set e : ℕ → ℝ := fun i => x i - x₀ i with he
  have hstill : Still n D e := heldTo_sub hx.1 h₀.held
  have h1 := hx.2 x₀ h₀.held
  beta_reduce at h1
  rw [hΦ0, mul_zero, energy_next S hA.symm x₀ x] at h1
  have hΦx := hΦ x
  have hαΦ : 0 ≤ α * Φ x := mul_nonneg hα.le hΦx
  have hq := hcoer e hstill
  have hq0 := hA.nonneg e
  have hbound : fieldSize n e ≤ 2 * κ * (ρ + L) := by
    have hw := neg_le_of_abs_le (work_le n R e)
    have hj := hJL x₀ x
    have hsym : fieldSize n (fun i => x₀ i - x i) = fieldSize n e := by
      refine le_antisymm (fieldSize_le (fieldSize_nonneg _ _) fun r hr => ?_)
        (fieldSize_le (fieldSize_nonneg _ _) fun r hr => ?_)
      · rw [abs_sub_comm]; exact le_fieldSize hr e
      · rw [he]; beta_reduce; rw [abs_sub_comm]; exact le_fieldSize hr fun i => x₀ i - x i
    rw [hsym] at hj
    set m := fieldSize n e
    have hm : 0 ≤ m := fieldSize_nonneg _ _
    have h2 : 1 / 2 * quad n S.lhs e ≤ (ρ + L) * m := by nlinarith
    have h3 : m * m ≤ (2 * κ * (ρ + L)) * m := by nlinarith
    rcases hm.eq_or_lt with h | h
    · rw [← h]; positivity
    · exact le_of_mul_le_mul_right h3 h
  have hxB : ∀ r < n, |x r| ≤ B := fun r hr => by
    have h2 : x r = x₀ r + e r := by simp [he]
    rw [h2]
    refine (abs_add_le _ _).trans (add_le_add (le_fieldSize hr _) ((le_fieldSize hr e).trans hbound))
  obtain ⟨z, δ, hz, hZz, hδ, hcδ, hxz⟩ := hnear x hx.1 hxB
  have h2 := leastUnder_variational hA.symm hJ h₀ hz (hZ _ _ h₀.allowed hZz)
  have h3 : ∑ r ∈ Finset.range n, (x r - x₀ r) * (act n S.lhs x₀ r - S.rhs r) =
      ∑ r ∈ Finset.range n, (x r - z r) * R r +
        ∑ r ∈ Finset.range n, (z r - x₀ r) * (act n S.lhs x₀ r - S.rhs r) := by
    rw [← Finset.sum_add_distrib]
    exact Finset.sum_congr rfl fun r _ => by rw [hR]; ring
  have h4 := neg_le_of_abs_le (work_le n R fun i => x i - z i)
  have h5 : J z - J x ≤ L * δ := by
    refine (hJL z x).trans (mul_le_mul_of_nonneg_left (le_trans (fieldSize_le (fieldSize_nonneg _ _)
      fun r hr => ?_) hxz) hL)
    rw [abs_sub_comm]; exact le_fieldSize hr fun i => x i - z i
  have h6 : ρ * fieldSize n (fun i => x i - z i) ≤ ρ * δ := mul_le_mul_of_nonneg_left hxz hρ0
  have h7 : α * Φ x + 1 / 2 * quad n S.lhs e ≤ (ρ + L) * δ := by
    rw [h3] at h1
    nlinarith
  have hδ' : δ * (α * c) ≤ ρ + L := by
    rcases hδ.eq_or_lt with h | h
    · rw [← h]; simp; positivity
    · have : δ * (α * c) * δ ≤ (ρ + L) * δ := by nlinarith
      exact le_of_mul_le_mul_right this h
  have hδ2 : δ ≤ (ρ + L) / (α * c) := by rw [le_div_iff₀ (by positivity)]; exact hδ'
  have h8 : (ρ + L) * δ ≤ (ρ + L) ^ 2 / c / α := by
    calc (ρ + L) * δ ≤ (ρ + L) * ((ρ + L) / (α * c)) := mul_le_mul_of_nonneg_left hδ2 (by positivity)
      _ = (ρ + L) ^ 2 / c / α := by field_simp
  refine ⟨hxB, ?_, ?_⟩
  · have : Φ x ≤ (ρ + L) ^ 2 / c / α ^ 2 := by
      have h9 : α * Φ x ≤ (ρ + L) ^ 2 / c / α := by linarith
      have : Φ x ≤ (ρ + L) ^ 2 / c / α / α := by rw [le_div_iff₀ hα]; linarith
      rwa [div_div, ← sq] at this
    exact this.trans (div_le_div_of_nonneg_right (le_max_left _ _) (by positivity))
  · have : quad n S.lhs e ≤ 2 * ((ρ + L) ^ 2 / c) / α := by
      have : quad n S.lhs e ≤ 2 * ((ρ + L) ^ 2 / c / α) := by linarith
      rwa [← mul_div_assoc] at this
    exact this.trans (div_le_div_of_nonneg_right (le_max_right _ _) hα.le)

/-- A field of least energy among those with the same values on `G` is in equilibrium elsewhere. -/
theorem free_balance {S : System ℝ} (hA : ∀ r < n, ∀ s < n, S.lhs r s = S.lhs s r) {G : ℕ → Prop} {x : ℕ → ℝ}
    (hx : LeastUnder n D g S (fun _ => 0) (fun y => ∀ s < n, G s → y s = x s) x) {r : ℕ} (hr : r < n)
    (hD : ¬ D r) (hG : ¬ G r) : act n S.lhs x r = S.rhs r := by
  have key : ∀ a : ℝ, 0 ≤ a * (act n S.lhs x r - S.rhs r) := by
    intro a
    have hy : HeldTo n D g fun i => x i + if i = r then a else 0 := fun s hs hDs => by
      have : s ≠ r := fun h => hD (h ▸ hDs)
      beta_reduce
      rw [if_neg this, add_zero]; exact hx.held s hs hDs
    have h := leastUnder_variational hA (fun _ _ _ _ _ _ _ => by simp) hx hy fun t _ _ s _ hGs => by
      have : s ≠ r := fun h => hG (h ▸ hGs)
      beta_reduce
      rw [if_neg this]; ring
    have e : ∑ s ∈ Finset.range n, (x s + (if s = r then a else 0) - x s) * (act n S.lhs x s - S.rhs s) =
        a * (act n S.lhs x r - S.rhs r) := by
      rw [Finset.sum_eq_single r]
      · rw [if_pos rfl]; ring
      · intro s _ hs; rw [if_neg hs]; ring
      · intro h; exact absurd (Finset.mem_range.2 hr) h
    rw [e] at h
    simpa using h
  have h1 := key 1
  have h2 := key (-1)
  linarith

/-- Large penalties on the distance of the entries `G` from a level: the distance of all entries from the
field that is held at the level is at most `K / α`. -/
theorem level_estimate {S : System ℝ} (hA : StoresEnergy n S.lhs) (hdef : DefiniteOn n D S.lhs)
    {Φ : (ℕ → ℝ) → ℝ} {G : ℕ → Prop} {b : ℝ} (hGD : ∀ r < n, G r → ¬ D r)
    {x₀ : ℕ → ℝ} (h₀ : LeastUnder n D g S (fun _ => 0) (fun y => ∀ r < n, G r → y r = b) x₀)
    (hΦ0 : ∀ y, (∀ r < n, G r → y r = b) → Φ y = 0) (hΦ : ∀ y, 0 ≤ Φ y)
    (hΦG : ∀ x y, (∀ r < n, G r → x r = y r) → Φ x = Φ y)
    (hgrow : ∀ B, ∃ c, 0 < c ∧ ∀ y, (∀ r < n, |y r| ≤ B) → ∀ r < n, G r → c * (y r - b) ^ 2 ≤ Φ y) :
    ∃ K, 0 ≤ K ∧ ∀ α, 0 < α → ∀ x, HeldMinimiser n D g (fun y => energy n S y + α * Φ y) x →
      ∀ r < n, |x r - x₀ r| ≤ K / α := by
  classical
  obtain ⟨K, B, hK, -, hest⟩ := penalty_estimate (J := fun _ => 0) (Φ := Φ) (L := 0) hA hdef
    (fun _ _ _ _ _ _ _ => by simp) le_rfl (fun x y => by simp) h₀ (hΦ0 _ h₀.allowed) hΦ
    (fun y z hy hz t _ _ r hr hG => by beta_reduce; rw [hy r hr hG, hz r hr hG]; ring)
    (fun B => by
      obtain ⟨c, hc, h⟩ := hgrow B
      refine ⟨c, hc, fun y hy hB => ⟨fun i => if G i then b else y i, Real.sqrt (Φ y / c), ?_, ?_,
        Real.sqrt_nonneg _, ?_, fieldSize_le (Real.sqrt_nonneg _) fun r hr => ?_⟩⟩
      · intro r hr hD
        beta_reduce
        rw [if_neg fun hG => hGD r hr hG hD]; exact hy r hr hD
      · intro r hr hG
        beta_reduce
        rw [if_pos hG]
      · rw [Real.sq_sqrt (div_nonneg (hΦ y) hc.le), mul_div_cancel₀ _ hc.ne']
      · refine Real.le_sqrt_of_sq_le ?_
        rw [sq_abs]
        beta_reduce
        by_cases hG : G r
        · rw [if_pos hG, le_div_iff₀ hc, mul_comm]; exact h y hB r hr hG
        · rw [if_neg hG, sub_self]
          simpa using div_nonneg (hΦ y) hc.le)
  obtain ⟨c, hc, hgrow⟩ := hgrow B
  obtain ⟨κ, hκ, hcoer⟩ := fieldSize_sq hA hdef
  set a := ∑ r ∈ Finset.range n, ∑ s ∈ Finset.range n, |S.lhs r s| with ha
  have ha0 : 0 ≤ a := Finset.sum_nonneg fun r _ => Finset.sum_nonneg fun s _ => abs_nonneg _
  set k := Real.sqrt (K / c) with hk
  have hk0 : 0 ≤ k := Real.sqrt_nonneg _
  refine ⟨κ * (k * a), by positivity, fun α hα x hx => ?_⟩
  obtain ⟨hxB, hΦx, -⟩ := hest α hα x ⟨hx.1, fun v hv => by simpa using hx.2 v hv⟩
  set e : ℕ → ℝ := fun i => x i - x₀ i with he
  have hstill : Still n D e := heldTo_sub hx.1 h₀.held
  have hG : ∀ r < n, G r → |e r| ≤ k / α := by
    intro r hr hGr
    have h1 : (x r - b) ^ 2 ≤ K / c / α ^ 2 := by
      have := (hgrow x hxB r hr hGr).trans hΦx
      rw [div_div, mul_comm c, ← div_div, le_div_iff₀ hc, mul_comm]; exact this
    have h2 : |x r - b| ≤ Real.sqrt (K / c / α ^ 2) := Real.abs_le_sqrt h1
    rw [Real.sqrt_div' _ (by positivity), Real.sqrt_sq hα.le] at h2
    rw [he]; beta_reduce
    rw [h₀.allowed r hr hGr]; exact h2
  have hbal : ∀ r < n, ¬ D r → ¬ G r → act n S.lhs e r = 0 := by
    intro r hr hD hGr
    have h1 : act n S.lhs x r = S.rhs r := by
      refine free_balance hA.symm (g := g) (G := G) ⟨hx.1, fun s _ _ => rfl, fun y hy hyG => ?_⟩ hr hD hGr
      have := hx.2 y hy
      beta_reduce at this
      rw [hΦG y x hyG] at this
      linarith
    have h2 : act n S.lhs x₀ r = S.rhs r := by
      refine free_balance hA.symm (g := g) (G := G) ⟨h₀.held, fun s _ _ => rfl, fun y hy hyG =>
        h₀.least y hy fun s hs hGs => ?_⟩ hr hD hGr
      rw [hyG s hs hGs]; exact h₀.allowed s hs hGs
    have h3 : act n S.lhs e r = act n S.lhs x r - act n S.lhs x₀ r := by
      unfold act
      rw [← Finset.sum_sub_distrib]
      exact Finset.sum_congr rfl fun s _ => by rw [he]; ring
    rw [h3, h1, h2, sub_self]
  set m := fieldSize n e with hm
  have hm0 : 0 ≤ m := fieldSize_nonneg _ _
  have hact : ∀ r < n, |act n S.lhs e r| ≤ (∑ s ∈ Finset.range n, |S.lhs r s|) * m := by
    intro r hr
    have := work_le n (fun s => S.lhs r s) e
    unfold act
    rw [Finset.sum_congr rfl fun s _ => mul_comm (S.lhs r s) (e s)]
    exact this
  have hkα : 0 ≤ k / α := div_nonneg hk0 hα.le
  have hquad : quad n S.lhs e ≤ k / α * (a * m) := by
    rw [ha, Finset.sum_mul, Finset.mul_sum]
    refine Finset.sum_le_sum fun r hr => ?_
    have hr := Finset.mem_range.1 hr
    have hpos : 0 ≤ k / α * ((∑ s ∈ Finset.range n, |S.lhs r s|) * m) :=
      mul_nonneg hkα (mul_nonneg (Finset.sum_nonneg fun s _ => abs_nonneg _) hm0)
    change e r * act n S.lhs e r ≤ _
    by_cases hD : D r
    · rw [hstill r hr hD, zero_mul]; exact hpos
    by_cases hGr : G r
    · refine (le_abs_self _).trans ?_
      rw [abs_mul]
      exact mul_le_mul (hG r hr hGr) (hact r hr) (abs_nonneg _) hkα
    · rw [hbal r hr hD hGr, mul_zero]; exact hpos
  have hfin : m ≤ κ * (k * a) / α := by
    have h1 := hcoer e hstill
    have h2 : m * m ≤ κ * (k * a) / α * m := by
      calc m * m = m ^ 2 := by ring
        _ ≤ κ * quad n S.lhs e := h1
        _ ≤ κ * (k / α * (a * m)) := mul_le_mul_of_nonneg_left hquad hκ.le
        _ = κ * (k * a) / α * m := by ring
    rcases hm0.eq_or_lt with h | h
    · rw [← h]; positivity
    · exact le_of_mul_le_mul_right h2 h
  intro r hr
  exact (le_fieldSize hr e).trans hfin

/-- Fields of least energy exist under closed constraints, also with a further continuous cost that is not
negative. -/
theorem exists_least {S : System ℝ} (hA : StoresEnergy n S.lhs) (hdef : DefiniteOn n D S.lhs)
    {J : (ℕ → ℝ) → ℝ} (hJ0 : ∀ y, 0 ≤ J y) (hJn : DependsOn n J)
    (hJc : Continuous fun y : Fin n → ℝ => J (extendZero n y)) {Z : (ℕ → ℝ) → Prop}
    (hZn : ∀ x y, (∀ r < n, x r = y r) → Z x → Z y) (hZc : IsClosed {y : Fin n → ℝ | Z (extendZero n y)})
    {x₁ : ℕ → ℝ} (h₁ : HeldTo n D g x₁) (hZ₁ : Z x₁) : ∃ x, LeastUnder n D g S J Z x := by
  obtain ⟨κ, hκ, hcoer⟩ := fieldSize_sq hA hdef
  set s : Set (Fin n → ℝ) := {y | HeldTo n D g (extendZero n y)} ∩ {y | Z (extendZero n y)} with hs
  have hex : ∀ y : ℕ → ℝ, ∀ r < n, extendZero n (fun r : Fin n => y r) r = y r := fun y r hr => by
    simp [extendZero, hr]
  have hcont : ∀ i, Continuous fun x : Fin n → ℝ => extendZero n x i := by
    intro i
    simp only [extendZero]
    split_ifs
    · exact continuous_apply _
    · exact continuous_const
  have hheld : IsClosed {y : Fin n → ℝ | HeldTo n D g (extendZero n y)} := by
    simp only [HeldTo, Set.setOf_forall]
    exact isClosed_iInter fun r => isClosed_iInter fun _ => isClosed_iInter fun _ =>
      isClosed_eq (hcont r) continuous_const
  have hE : Continuous fun y : Fin n → ℝ => energy n S (extendZero n y) := by
    unfold energy quad
    fun_prop
  have hen : ∀ x y : ℕ → ℝ, (∀ r < n, x r = y r) → energy n S x = energy n S y := fun x y h => by
    unfold energy
    rw [quad_same h]
    congr 1
    exact Finset.sum_congr rfl fun r hr => by rw [h r (Finset.mem_range.1 hr)]
  set y₁ : Fin n → ℝ := fun r => x₁ r with hy₁
  have hmem : y₁ ∈ s := ⟨fun r hr hD => by rw [hex x₁ r hr]; exact h₁ r hr hD,
    hZn _ _ (fun r hr => (hex x₁ r hr).symm) hZ₁⟩
  set R : ℕ → ℝ := fun r => act n S.lhs x₁ r - S.rhs r with hR
  set ρ := ∑ r ∈ Finset.range n, |R r| with hρ
  have hρ0 : 0 ≤ ρ := Finset.sum_nonneg fun r _ => abs_nonneg _
  have hfar : ∀ᶠ y in Filter.cocompact (Fin n → ℝ) ⊓ Filter.principal s,
      energy n S (extendZero n y₁) + J (extendZero n y₁) ≤ energy n S (extendZero n y) + J (extendZero n y) := by
    rw [Filter.eventually_inf_principal]
    set C := J x₁ with hC
    have hball := (isCompact_closedBall y₁ (2 * κ * (ρ + C + 1) + 1)).compl_mem_cocompact
    filter_upwards [hball] with y hy hys
    set e : ℕ → ℝ := fun i => extendZero n y i - x₁ i with he
    have hsz : fieldSize n e = dist y y₁ := by
      rw [dist_eq_norm]
      unfold fieldSize
      congr 1
      funext r
      simp [he, hy₁, extendZero]
    have hlt : 2 * κ * (ρ + C + 1) + 1 < fieldSize n e := by
      rw [hsz]
      simpa using hy
    have hstill : Still n D e := heldTo_sub hys.1 h₁
    have hq := hcoer e hstill
    have hw := neg_le_of_abs_le (work_le n R e)
    rw [hen _ _ (hex x₁), hJn _ _ (hex x₁), energy_next S hA.symm x₁ (extendZero n y)]
    have hJy := hJ0 (extendZero n y)
    have hC0 : 0 ≤ C := hJ0 x₁
    set m := fieldSize n e
    have hprod : 0 ≤ 2 * κ * (ρ + C + 1) := by positivity
    have h1 : κ * (2 * ((ρ + C + 1) * m)) ≤ κ * quad n S.lhs e := by nlinarith
    have h2 := le_of_mul_le_mul_left h1 hκ
    have h3 : C ≤ (C + 1) * m := by nlinarith
    change _ ≤ energy n S x₁ + ∑ r ∈ Finset.range n, e r * R r + 1 / 2 * quad n S.lhs e + _
    nlinarith
  obtain ⟨y, hys, hmin⟩ := (hE.add hJc).continuousOn.exists_isMinOn' (hheld.inter hZc) hmem hfar
  refine ⟨extendZero n y, hys.1, hys.2, fun v hv hZv => ?_⟩
  have h := hmin (show (fun r : Fin n => v r) ∈ s from ⟨fun r hr hD => by rw [hex v r hr]; exact hv r hr hD,
    hZn _ _ (fun r hr => (hex v r hr).symm) hZv⟩)
  simp only [Set.mem_setOf_eq, Pi.add_apply] at h
  rw [hen _ _ (hex v), hJn _ _ (hex v)] at h
  exact h

end Conmech
