import Mathlib.Analysis.ODE.ExistUnique
import Mathlib.Tactic.Linarith
import Mathlib.Tactic.FieldSimp
/-!
Differential equations whose right side is Lipschitz continuous everywhere have solutions on every
interval.
-/
namespace Conmech
open Set

section
variable {E : Type*} [NormedAddCommGroup E] [NormedSpace ℝ E] [CompleteSpace E]

/-- On a short interval. -/
theorem ode_short (F : ℝ → E → E) (K : NNReal) {a b : ℝ} (hab : a ≤ b)
    (hl : ∀ t ∈ Icc a b, LipschitzWith K (F t)) (hc : ∀ x, ContinuousOn (fun t => F t x) (Icc a b))
    (hs : (b - a) * K ≤ 1 / 2) (x₀ : E) :
    ∃ z : ℝ → E, z a = x₀ ∧ ∀ t ∈ Icc a b, HasDerivWithinAt z (F t (z t)) (Icc a b) t := by
  obtain ⟨c, hcb⟩ := isCompact_Icc.exists_bound_of_continuousOn (hc x₀)
  have hc0 : 0 ≤ c := (norm_nonneg _).trans (hcb a ⟨le_rfl, hab⟩)
  have hd : 0 ≤ b - a := by linarith
  let R : NNReal := ⟨2 * c * (b - a), by positivity⟩
  let L : NNReal := ⟨c + K * R, by positivity⟩
  have hp : IsPicardLindelof F (tmin := a) (tmax := b) ⟨a, le_rfl, hab⟩ x₀ R 0 L K := by
    refine ⟨fun t ht => (hl t ht).lipschitzOnWith, fun x _ => hc x, fun t ht x hx => ?_, ?_⟩
    · have h1 : ‖F t x - F t x₀‖ ≤ K * ‖x - x₀‖ := by
        have := (hl t ht).dist_le_mul x x₀
        rwa [dist_eq_norm, dist_eq_norm] at this
      have h2 : ‖x - x₀‖ ≤ R := by rw [← dist_eq_norm]; exact hx
      have h3 : ‖F t x‖ ≤ ‖F t x - F t x₀‖ + ‖F t x₀‖ := by
        have := norm_add_le (F t x - F t x₀) (F t x₀)
        rwa [sub_add_cancel] at this
      have h4 := mul_le_mul_of_nonneg_left h2 K.2
      have h5 := hcb t ht
      change _ ≤ c + K * (R : ℝ)
      have h4' : (K : ℝ) * ‖x - x₀‖ ≤ K * (R : ℝ) := h4
      linarith
    · change (c + K * (2 * c * (b - a))) * max (b - a) (a - a) ≤ 2 * c * (b - a) - 0
      rw [sub_self, max_eq_left hd]
      have := mul_le_mul_of_nonneg_left hs (mul_nonneg (mul_nonneg (by norm_num : (0 : ℝ) ≤ 2) hc0) hd)
      nlinarith
  exact hp.exists_eq_forall_mem_Icc_hasDerivWithinAt₀

omit [CompleteSpace E] in
/-- Two solutions are put together. -/
theorem ode_glue (F : ℝ → E → E) {a b c : ℝ} (hab : a ≤ b) (hbc : b ≤ c) (z w : ℝ → E) (hzw : z b = w b)
    (hz : ∀ t ∈ Icc a b, HasDerivWithinAt z (F t (z t)) (Icc a b) t)
    (hw : ∀ t ∈ Icc b c, HasDerivWithinAt w (F t (w t)) (Icc b c) t) :
    let y := fun t => if t ≤ b then z t else w t
    ∀ t ∈ Icc a c, HasDerivWithinAt y (F t (y t)) (Icc a c) t := by
  intro y t ht
  have ez : ∀ s ∈ Icc a b, y s = z s := fun s hs => if_pos hs.2
  have ew : ∀ s ∈ Icc b c, y s = w s := fun s hs => by
    by_cases h : s ≤ b
    · have : s = b := le_antisymm h hs.1
      subst this
      rw [← hzw]; exact if_pos le_rfl
    · exact if_neg h
  have key : ∀ s ∈ Icc a c, (s ∈ Icc a b → HasDerivWithinAt y (F s (y s)) (Icc a b) s) ∧
      (s ∈ Icc b c → HasDerivWithinAt y (F s (y s)) (Icc b c) s) := by
    intro s _
    refine ⟨fun h => ?_, fun h => ?_⟩
    · rw [ez s h]; exact (hz s h).congr ez (ez s h)
    · rw [ew s h]; exact (hw s h).congr ew (ew s h)
  rw [← Icc_union_Icc_eq_Icc hab hbc]
  obtain ⟨k1, k2⟩ := key t ht
  rcases lt_trichotomy t b with h | h | h
  · refine (k1 ⟨ht.1, h.le⟩).union ?_
    refine hasDerivWithinAt_iff_hasFDerivWithinAt.2 (HasFDerivWithinAt.of_notMem_closure ?_)
    rw [closure_Icc]
    exact fun h' => absurd h'.1 (not_le.2 h)
  · subst h
    exact (k1 ⟨hab, le_rfl⟩).union (k2 ⟨le_rfl, hbc⟩)
  · refine HasDerivWithinAt.union ?_ (k2 ⟨h.le, ht.2⟩)
    refine hasDerivWithinAt_iff_hasFDerivWithinAt.2 (HasFDerivWithinAt.of_notMem_closure ?_)
    rw [closure_Icc]
    exact fun h' => absurd h'.2 (not_le.2 h)

/-- On any interval. -/
theorem ode_global (F : ℝ → E → E) (K : NNReal) (T : ℝ) (hT : 0 ≤ T)
    (hl : ∀ t ∈ Icc 0 T, LipschitzWith K (F t)) (hc : ∀ x, ContinuousOn (fun t => F t x) (Icc 0 T))
    (x₀ : E) :
    ∃ z : ℝ → E, z 0 = x₀ ∧ ∀ t ∈ Icc 0 T, HasDerivWithinAt z (F t (z t)) (Icc 0 T) t := by
  set h : ℝ := 1 / (2 * (K + 1)) with hh
  have hK : (0 : ℝ) ≤ K := K.2
  have h0 : 0 < h := by positivity
  have hs : h * K ≤ 1 / 2 := by
    rw [hh, div_mul_eq_mul_div, div_le_iff₀ (by positivity)]; linarith
  have main : ∀ m : ℕ, ∃ z : ℝ → E, z 0 = x₀ ∧
      ∀ t ∈ Icc 0 (min T (m * h)), HasDerivWithinAt z (F t (z t)) (Icc 0 (min T (m * h))) t := by
    intro m
    induction m with
    | zero =>
      refine ⟨fun _ => x₀, rfl, fun t ht => ?_⟩
      have : min T (((0 : ℕ) : ℝ) * h) = 0 := by simp [hT]
      rw [this] at ht ⊢
      have ht0 : t = 0 := le_antisymm ht.2 ht.1
      subst ht0
      rw [Icc_self]
      exact hasDerivWithinAt_iff_hasFDerivWithinAt.2
        (HasFDerivWithinAt.of_subsingleton subsingleton_singleton)
    | succ m ih =>
      obtain ⟨z, hz0, hz⟩ := ih
      set b := min T ((m : ℝ) * h) with hb
      set c := min T (((m + 1 : ℕ) : ℝ) * h) with hcdef
      have hb0 : 0 ≤ b := le_min hT (by positivity)
      have hbc : b ≤ c := min_le_min le_rfl (by push_cast; nlinarith)
      have hcb : c - b ≤ h := by
        rw [hb, hcdef]
        push_cast
        rcases le_total T ((m : ℝ) * h) with h1 | h1
        · rw [min_eq_left h1]
          have := min_le_left T (((m : ℝ) + 1) * h)
          linarith
        · rw [min_eq_right h1]
          have := min_le_right T (((m : ℝ) + 1) * h)
          nlinarith
      have hcT : c ≤ T := min_le_left _ _
      have hsub : Icc b c ⊆ Icc 0 T := Icc_subset_Icc hb0 hcT
      obtain ⟨w, hw0, hw⟩ := ode_short F K hbc (fun t ht => hl t (hsub ht)) (fun x => (hc x).mono hsub)
        ((mul_le_mul_of_nonneg_right hcb hK).trans hs) (z b)
      refine ⟨_, ?_, ode_glue F hb0 hbc z w hw0.symm hz hw⟩
      rw [if_pos hb0]; exact hz0
  obtain ⟨m, hm⟩ := exists_nat_ge (T / h)
  have : min T ((m : ℝ) * h) = T := min_eq_left (by rwa [div_le_iff₀ h0] at hm)
  have := main m
  rwa [‹min T ((m : ℝ) * h) = T›] at this

end

end Conmech
