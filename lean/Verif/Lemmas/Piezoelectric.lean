import Verif.Spec.Piezoelectric
import Verif.Lemmas.ThermalMotion
import Verif.Props.Creep
/-!
Piezoelectric bodies: the potential that belongs to a displacement, the passes of a time step, and the
elasticity of the body together with its electric field.
-/
namespace Conmech
open Spec

namespace Spec.PiezoBody
variable {b : PiezoBody}

theorem work_sub_left (φ φ' u : ℕ → ℝ) : b.work (fun p => φ p - φ' p) u = b.work φ u - b.work φ' u := by
  unfold work
  rw [← Finset.sum_sub_distrib]
  exact Finset.sum_congr rfl fun p _ => by ring

theorem work_sub_right (φ u u' : ℕ → ℝ) : b.work φ (fun i => u i - u' i) = b.work φ u - b.work φ u' := by
  unfold work
  rw [← Finset.sum_sub_distrib]
  exact Finset.sum_congr rfl fun p _ => by rw [act_difference]; ring

theorem work_smul_right (φ u : ℕ → ℝ) (c : ℝ) : b.work φ (fun i => c * u i) = c * b.work φ u := by
  unfold work act
  rw [Finset.mul_sum]
  refine Finset.sum_congr rfl fun p _ => ?_
  simp only [Finset.mul_sum]
  exact Finset.sum_congr rfl fun s _ => by ring

theorem work_eq (φ u : ℕ → ℝ) :
    b.work φ u = ∑ r ∈ Finset.range b.n, u r * act b.N (fun r p => b.coupling p r) φ r := by
  unfold work act
  simp only [Finset.mul_sum]
  rw [Finset.sum_comm]
  exact Finset.sum_congr rfl fun r _ => Finset.sum_congr rfl fun p _ => by ring

theorem work_congr {φ φ' u u' : ℕ → ℝ} (h : ∀ p < b.N, φ p = φ' p) (h' : ∀ r < b.n, u r = u' r) :
    b.work φ u = b.work φ' u' := by
  unfold work
  refine Finset.sum_congr rfl fun p hp => ?_
  rw [h p (Finset.mem_range.1 hp), act_congr (x := u) (y := u') h']

/-- The change of the potential that a change of the displacement causes. -/
structure Answers (b : PiezoBody) (u ψ : ℕ → ℝ) : Prop where
  still : Still b.N b.D' ψ
  work : ∀ ζ, Still b.N b.D' ζ → bilin b.N b.permittivity ζ ψ = b.work ζ u

theorem Charged.sub {u φ u' φ' : ℕ → ℝ} (h : b.Charged u φ) (h' : b.Charged u' φ') :
    b.Answers (fun i => u i - u' i) fun p => φ p - φ' p := by
  refine ⟨fun p hp hD => ?_, fun ζ hζ => ?_⟩
  · beta_reduce
    rw [h.electrodes p hp hD, h'.electrodes p hp hD, sub_self]
  · unfold PiezoBody.work bilin
    refine Finset.sum_congr rfl fun p hp => ?_
    have hp := Finset.mem_range.1 hp
    by_cases hD : b.D' p
    · rw [hζ p hp hD, zero_mul, zero_mul]
    · congr 1
      change act b.N b.permittivity (fun p => φ p - φ' p) p = _
      rw [act_difference, act_difference, h.free p hp hD, h'.free p hp hD]

theorem Answers.energy {u ψ : ℕ → ℝ} (h : b.Answers u ψ) :
    quad b.N b.permittivity ψ = b.work ψ u := by
  rw [quad_eq_bilin, h.work ψ h.still]

theorem Answers.unique (hb : b.Sound) {u ψ ψ' : ℕ → ℝ} (h : b.Answers u ψ) (h' : b.Answers u ψ') :
    ∀ p < b.N, ψ p = ψ' p := by
  intro p hp
  have hs := still_sub h.still h'.still
  have h1 := h.work _ hs
  have h2 := h'.work _ hs
  have h3 : quad b.N b.permittivity (fun p => ψ p - ψ' p) = 0 := by
    rw [quad_eq_bilin]
    have e : (fun p => ψ p - ψ' p) = fun p => ψ p + (-1) * ψ' p := by funext p; ring
    have := bilin_add_right b.N b.permittivity (fun p => ψ p - ψ' p) ψ fun p => (-1) * ψ' p
    rw [bilin_smul_right, h1, h2] at this
    rw [show bilin b.N b.permittivity (fun p => ψ p - ψ' p) (fun p => ψ p - ψ' p) =
      bilin b.N b.permittivity (fun p => ψ p - ψ' p) (fun p => ψ p + (-1) * ψ' p) by rw [← e], this]
    ring
  exact sub_eq_zero.1 (hb.grounded _ hs h3 p hp)

/-- There is a potential for every charge. -/
theorem Sound.solve (hb : b.Sound) (c : ℕ → ℝ) :
    ∃ ψ, Still b.N b.D' ψ ∧ ∀ p < b.N, ¬ b.D' p → act b.N b.permittivity ψ p = c p := by
  obtain ⟨v, hv, h⟩ := exists_velocity (J := fun _ => 0) hb.permittivity hb.grounded
    (fun _ _ _ _ _ _ _ => by simp) (fun _ _ _ => rfl) fun r : Fin b.N => c r
  refine ⟨extendZero b.N v, hv, fun p hp hD => ?_⟩
  have e : extendZero b.N (fun r : Fin b.N => c r) p = c p := by simp [extendZero, hp]
  set g := act b.N b.permittivity (extendZero b.N v) p - c p with hg
  have h1 := h (fun i => extendZero b.N v i + if i = p then -g else 0) fun r hr hr' => by
    have : r ≠ p := fun h => hD (h ▸ hr')
    simp only [this, if_false, add_zero]
    exact hv r hr hr'
  simp only [add_sub_cancel_left, sub_self, add_zero] at h1
  rw [Finset.sum_eq_single p (fun r _ hr => by simp [hr]) (fun hp' => absurd (Finset.mem_range.2 hp) hp')] at h1
  rw [if_pos rfl, e, ← hg] at h1
  have h2 : g = 0 := by nlinarith
  linarith

/-- Every displacement has its potential. -/
theorem Sound.exists_charged (hb : b.Sound) (u : ℕ → ℝ) : ∃ φ, b.Charged u φ := by
  classical
  set g : ℕ → ℝ := fun p => if b.D' p then b.prescribed p else 0 with hg
  obtain ⟨ψ, h1, h2⟩ := hb.solve fun p => act b.n b.coupling u p - act b.N b.permittivity g p
  refine ⟨fun p => ψ p - (-1) * g p, fun p hp hD => ?_, fun p hp hD => ?_⟩
  · beta_reduce
    rw [h1 p hp hD, hg]
    simp only [hD, if_true]; ring
  · have e : act b.N b.permittivity (fun p => (-1) * g p) p = -act b.N b.permittivity g p := by
      unfold act
      rw [← Finset.sum_neg_distrib]
      exact Finset.sum_congr rfl fun s _ => by ring
    rw [act_difference, h2 p hp hD, e]; ring

/-- The answers depend linearly on the displacements. -/
theorem Sound.exists_answers (hb : b.Sound) :
    ∃ G : ℕ → ℕ → ℝ, ∀ u, b.Answers u fun p => ∑ s ∈ Finset.range b.n, G p s * u s := by
  choose ψ h1 h2 using fun s => hb.solve fun p => b.coupling p s
  refine ⟨fun p s => ψ s p, fun u => ⟨fun p hp hD => ?_, fun ζ hζ => ?_⟩⟩
  · exact Finset.sum_eq_zero fun s _ => by beta_reduce; rw [h1 s p hp hD, zero_mul]
  · unfold PiezoBody.work bilin
    refine Finset.sum_congr rfl fun p hp => ?_
    have hp := Finset.mem_range.1 hp
    by_cases hD : b.D' p
    · rw [hζ p hp hD, zero_mul, zero_mul]
    · congr 1
      unfold act
      simp only [Finset.mul_sum]
      rw [Finset.sum_comm]
      refine Finset.sum_congr rfl fun s _ => ?_
      have := h2 s p hp hD
      unfold act at this
      rw [← this, Finset.sum_mul]
      exact Finset.sum_congr rfl fun q _ => by ring

/-- The potentials that the unit displacements cause. -/
noncomputable def Sound.answer (hb : b.Sound) : ℕ → ℕ → ℝ := hb.exists_answers.choose

/-- The potential that the electrodes cause in the undeformed body. -/
noncomputable def Sound.rest (hb : b.Sound) : ℕ → ℝ := (hb.exists_charged fun _ => 0).choose

/-- The elasticity of the body together with its electric field. -/
noncomputable def Sound.stiffness (hb : b.Sound) : ℕ → ℕ → ℝ := fun r s =>
  b.elasticity r s + ∑ p ∈ Finset.range b.N, b.coupling p r * hb.answer p s

/-- The potential of a displacement. -/
noncomputable def Sound.potential (hb : b.Sound) (u : ℕ → ℝ) : ℕ → ℝ := fun p =>
  hb.rest p + act b.n hb.answer u p

theorem Sound.answers (hb : b.Sound) (u : ℕ → ℝ) : b.Answers u (act b.n hb.answer u) :=
  hb.exists_answers.choose_spec u

theorem Sound.charged (hb : b.Sound) (u : ℕ → ℝ) : b.Charged u (hb.potential u) := by
  obtain ⟨φ, hφ⟩ := hb.exists_charged u
  have h0 : b.Charged (fun _ => 0) hb.rest := (hb.exists_charged fun _ => 0).choose_spec
  have h1 := hφ.sub h0
  simp only [sub_zero] at h1
  have h2 := h1.unique hb (hb.answers u)
  have e : ∀ p < b.N, hb.potential u p = φ p := fun p hp => by
    unfold Sound.potential
    have := h2 p hp
    linarith
  refine ⟨fun p hp hD => by rw [e p hp]; exact hφ.electrodes p hp hD, fun p hp hD => ?_⟩
  rw [act_congr (x := hb.potential u) (y := φ) e]
  exact hφ.free p hp hD

theorem Charged.eq_potential (hb : b.Sound) {u φ : ℕ → ℝ} (h : b.Charged u φ) :
    ∀ p < b.N, φ p = hb.potential u p := by
  have h1 := h.sub (hb.charged u)
  have h2 : b.Answers (fun i => u i - u i) fun _ => 0 := ⟨fun _ _ _ => rfl, fun ζ _ => by
    simp [bilin, PiezoBody.work, act]⟩
  intro p hp
  exact sub_eq_zero.1 (h1.unique hb h2 p hp)

theorem Sound.act_stiffness (hb : b.Sound) (u : ℕ → ℝ) (r : ℕ) :
    act b.n hb.stiffness u r = act b.n b.elasticity u r +
      act b.N (fun r p => b.coupling p r) (act b.n hb.answer u) r := by
  unfold act Sound.stiffness
  simp only [add_mul, Finset.sum_add_distrib]
  congr 1
  simp only [Finset.sum_mul, Finset.mul_sum]
  rw [Finset.sum_comm]
  exact Finset.sum_congr rfl fun p _ => Finset.sum_congr rfl fun s _ => by ring

theorem Sound.bilin_stiffness (hb : b.Sound) (x u : ℕ → ℝ) :
    bilin b.n hb.stiffness x u = bilin b.n b.elasticity x u + b.work (act b.n hb.answer u) x := by
  rw [work_eq]
  unfold bilin
  rw [← Finset.sum_add_distrib]
  refine Finset.sum_congr rfl fun r _ => ?_
  rw [← mul_add]
  congr 1
  exact hb.act_stiffness u r

theorem Sound.quad_stiffness (hb : b.Sound) (u : ℕ → ℝ) :
    quad b.n hb.stiffness u = quad b.n b.elasticity u +
      quad b.N b.permittivity (act b.n hb.answer u) := by
  rw [(hb.answers u).energy, quad_eq_bilin, hb.bilin_stiffness]; rfl

theorem act_unit {n s : ℕ} (M : ℕ → ℕ → ℝ) (hs : s < n) (r : ℕ) :
    act n M (fun i => if i = s then 1 else 0) r = M r s := by
  unfold act
  rw [Finset.sum_eq_single s (fun i _ hi => by simp [hi]) (fun h => absurd (Finset.mem_range.2 hs) h)]
  simp

theorem Sound.storesStiffness (hb : b.Sound) : StoresEnergy b.n hb.stiffness := by
  refine ⟨fun r hr s hs => ?_, fun x => ?_⟩
  · have key : ∀ r < b.n, ∀ s < b.n, ∑ p ∈ Finset.range b.N, b.coupling p r * hb.answer p s =
        bilin b.N b.permittivity (fun p => hb.answer p s) fun p => hb.answer p r := by
      intro r hr s hs
      have h1 := hb.answers fun i => if i = s then 1 else 0
      have h2 := hb.answers fun i => if i = r then 1 else 0
      have h3 := h2.work _ h1.still
      have e1 : act b.n hb.answer (fun i => if i = s then 1 else 0) = fun p => hb.answer p s :=
        funext fun p => act_unit _ hs p
      have e2 : act b.n hb.answer (fun i => if i = r then 1 else 0) = fun p => hb.answer p r :=
        funext fun p => act_unit _ hr p
      rw [e1, e2] at h3
      rw [h3]
      unfold PiezoBody.work
      exact Finset.sum_congr rfl fun p _ => by rw [act_unit _ hr]; ring
    unfold Sound.stiffness
    rw [key r hr s hs, key s hs r hr, hb.elasticity.symm r hr s hs,
      bilin_symm _ _ hb.permittivity.symm]
  · rw [hb.quad_stiffness]
    exact add_nonneg (hb.elasticity.nonneg _) (hb.permittivity.nonneg _)

/-- The distance of two states with their potentials. -/
theorem Charged.distance (hb : b.Sound) {u φ u' φ' : ℕ → ℝ} (h : b.Charged u φ) (h' : b.Charged u' φ') :
    b.distance u φ u' φ' = strainDistance b.n hb.stiffness u u' := by
  unfold PiezoBody.distance strainDistance
  rw [hb.quad_stiffness]
  congr 2
  exact quad_congr ((h.sub h').unique hb (hb.answers _))

/-- The loads on the body together with its electric field. -/
noncomputable def Sound.loads (hb : b.Sound) (f : ℝ → ℕ → ℝ) : ℝ → ℕ → ℝ := fun t r =>
  f t r - act b.N (fun r p => b.coupling p r) hb.rest r

theorem act_add {n : ℕ} (M : ℕ → ℕ → ℝ) (x y : ℕ → ℝ) (r : ℕ) :
    act n M (fun i => x i + y i) r = act n M x r + act n M y r := by
  unfold act
  rw [← Finset.sum_add_distrib]
  exact Finset.sum_congr rfl fun s _ => by ring

/-- The balance of forces of the body together with its electric field. -/
theorem Sound.forces (hb : b.Sound) {u φ : ℕ → ℝ} (h : b.Charged u φ) (r : ℕ) :
    act b.n b.elasticity u r + act b.N (fun r p => b.coupling p r) φ r =
      act b.n hb.stiffness u r + act b.N (fun r p => b.coupling p r) hb.rest r := by
  rw [act_congr (x := φ) (y := hb.potential u) (h.eq_potential hb), hb.act_stiffness]
  unfold Sound.potential
  rw [act_add]; ring

/-- Motions of the body are those of the body together with its electric field. -/
theorem Sound.motion_iff (hb : b.Sound) {f : ℝ → ℕ → ℝ} {T : ℝ} {u v φ : ℝ → ℕ → ℝ}
    (hφ : ∀ t ∈ Set.Icc 0 T, b.Charged (u t) (φ t)) :
    b.Motion f T u v φ ↔
      Creep b.n b.D b.viscosity hb.stiffness b.contact (hb.loads f) 0 T u v := by
  have key : ∀ t ∈ Set.Icc 0 T, ∀ r, act b.n b.viscosity (v t) r + act b.n b.elasticity (u t) r +
      act b.N (fun r p => b.coupling p r) (φ t) r - f t r =
      act b.n b.viscosity (v t) r + act b.n hb.stiffness (u t) r - hb.loads f t r := by
    intro t ht r
    have := hb.forces (hφ t ht) r
    unfold Sound.loads
    linarith
  constructor
  · intro h
    refine ⟨h.velocity, h.held, fun t ht y hy => ?_⟩
    refine (h.moves t ht y hy).trans (le_of_eq ?_)
    congr 1
    exact Finset.sum_congr rfl fun r _ => by rw [key t ht]
  · intro h
    refine ⟨h.velocity, h.held, fun t ht y hy => ?_, hφ⟩
    refine (h.balanced t ht y hy).trans (le_of_eq ?_)
    congr 1
    exact Finset.sum_congr rfl fun r _ => by rw [key t ht]

end Spec.PiezoBody
end Conmech
