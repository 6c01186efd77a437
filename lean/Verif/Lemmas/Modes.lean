import Verif.Spec.Modes
import Verif.Lemmas.Energy
import Mathlib.Analysis.InnerProductSpace.Spectrum
import Mathlib.LinearAlgebra.BilinearForm.Properties
/-!
Every body has a complete set of shapes in which it oscillates.
-/
namespace Conmech
open Spec

/-- Vectors that vanish on the supports and beyond the nodes. -/
def freeVectors (n : ℕ) (D : ℕ → Prop) : Submodule ℝ (ℕ → ℝ) where
  carrier := {x | ∀ r, n ≤ r ∨ D r → x r = 0}
  add_mem' ha hb r hr := by
    simp only [Set.mem_setOf_eq] at ha hb
    rw [Pi.add_apply, ha r hr, hb r hr, add_zero]
  zero_mem' _ _ := rfl
  smul_mem' c x hx r hr := by
    simp only [Set.mem_setOf_eq] at hx
    rw [Pi.smul_apply, hx r hr, smul_zero]

/-- The space of these vectors, without a topology of its own. -/
def FreeSpace (n : ℕ) (D : ℕ → Prop) : Type := freeVectors n D

namespace FreeSpace
variable {n : ℕ} {D : ℕ → Prop} {M B : ℕ → ℕ → ℝ}

noncomputable instance : AddCommGroup (FreeSpace n D) := inferInstanceAs (AddCommGroup (freeVectors n D))

noncomputable instance : Module ℝ (FreeSpace n D) := inferInstanceAs (Module ℝ (freeVectors n D))

/-- The vector itself. -/
def vec (x : FreeSpace n D) : ℕ → ℝ := (show freeVectors n D from x).1

theorem vec_zero (x : FreeSpace n D) (r : ℕ) (hr : n ≤ r ∨ D r) : x.vec r = 0 :=
  (show freeVectors n D from x).2 r hr

theorem vec_injective {x y : FreeSpace n D} (h : ∀ r < n, x.vec r = y.vec r) : x = y := by
  refine Subtype.ext (funext fun r => ?_)
  by_cases hr : r < n
  · exact h r hr
  · exact (vec_zero x r (Or.inl (not_lt.1 hr))).trans (vec_zero y r (Or.inl (not_lt.1 hr))).symm

theorem vec_add (x y : FreeSpace n D) : (x + y).vec = fun i => x.vec i + y.vec i := rfl

theorem vec_smul (c : ℝ) (x : FreeSpace n D) : (c • x).vec = fun i => c * x.vec i := rfl

/-- The values at the nodes. -/
def values : FreeSpace n D →ₗ[ℝ] (Fin n → ℝ) where
  toFun x i := x.vec i
  map_add' _ _ := rfl
  map_smul' _ _ := rfl

instance : FiniteDimensional ℝ (FreeSpace n D) :=
  FiniteDimensional.of_injective values fun _ _ h => vec_injective fun r hr => congrFun h ⟨r, hr⟩

theorem vec_sum {ι : Type} (t : Finset ι) (f : ι → FreeSpace n D) (r : ℕ) :
    (∑ i ∈ t, f i).vec r = ∑ i ∈ t, (f i).vec r := by
  classical
  induction t using Finset.induction_on with
  | empty => simp; rfl
  | insert a t ha ih => rw [Finset.sum_insert ha, Finset.sum_insert ha, ← ih]; rfl

/-- A matrix as a bilinear form. -/
noncomputable def formOf (n : ℕ) (D : ℕ → Prop) (A : ℕ → ℕ → ℝ) : LinearMap.BilinForm ℝ (FreeSpace n D) :=
  LinearMap.mk₂ ℝ (fun x y => bilin n A x.vec y.vec)
    (fun x y z => by rw [vec_add, bilin_add_left]) (fun c x y => by rw [vec_smul, bilin_smul_left]; rfl)
    (fun x y z => by rw [vec_add, bilin_add_right]) (fun c x y => by rw [vec_smul, bilin_smul_right]; rfl)

theorem formOf_apply (A : ℕ → ℕ → ℝ) (x y : FreeSpace n D) : formOf n D A x y = bilin n A x.vec y.vec := rfl

theorem definite (hMd : DefiniteOn n D M) {x : FreeSpace n D} (h : bilin n M x.vec x.vec = 0) : x = 0 :=
  vec_injective fun r hr => hMd x.vec (fun _ _ hD => vec_zero x _ (Or.inr hD)) h r hr

theorem nondegenerate (hM : StoresEnergy n M) (hMd : DefiniteOn n D M) : (formOf n D M).Nondegenerate := by
  refine ⟨fun x h => definite hMd ?_, fun x h => definite hMd ?_⟩
  · exact h x
  · exact h x

/-- The inner product of kinetic energy. -/
@[instance_reducible] noncomputable def core (hM : StoresEnergy n M) (hMd : DefiniteOn n D M) : InnerProductSpace.Core ℝ (FreeSpace n D) where
  inner x y := bilin n M x.vec y.vec
  conj_inner_symm x y := bilin_symm n M hM.symm _ _
  re_inner_nonneg x := hM.nonneg x.vec
  add_left x y z := by rw [vec_add, bilin_add_left]
  smul_left x y c := by rw [vec_smul, bilin_smul_left]; rfl
  definite x h := definite hMd h

/-- A unit vector. -/
noncomputable def unit (r : ℕ) (hr : r < n) (hD : ¬ D r) : FreeSpace n D :=
  (⟨fun i => if i = r then 1 else 0, fun i hi => if_neg (by rintro rfl; rcases hi with h | h <;> [omega; exact hD h])⟩ :
    freeVectors n D)

theorem bilin_unit (A : ℕ → ℕ → ℝ) (x : FreeSpace n D) {r : ℕ} (hr : r < n) (hD : ¬ D r) :
    bilin n A (unit (D := D) r hr hD).vec x.vec = act n A x.vec r := by
  rw [← bilin_eq_act, Finset.sum_eq_single r]
  · simp [unit, vec]
  · intro b _ hb
    simp [unit, vec, hb]
  · intro h; exact absurd (Finset.mem_range.2 hr) h

end FreeSpace

open FreeSpace in
/-- Every body has shapes in which it oscillates, orthogonal with respect to the mass, and every vector that vanishes
on the supports is a sum of them. -/
theorem exists_modes {n : ℕ} {D : ℕ → Prop} {M B : ℕ → ℕ → ℝ} (hM : StoresEnergy n M) (hMd : DefiniteOn n D M)
    (hB : StoresEnergy n B) :
    ∃ (m : ℕ) (κ : ℕ → ℝ) (φ : ℕ → ℕ → ℝ), (∀ i < m, 0 ≤ κ i) ∧
      (∀ i < m, ModeOf n D M (fun _ _ => 0) B (κ i) 0 (φ i)) ∧
      (∀ i < m, ∀ j < m, bilin n M (φ i) (φ j) = if i = j then 1 else 0) ∧
      ∀ x : ℕ → ℝ, (∀ r < n, D r → x r = 0) → ∃ c : ℕ → ℝ, ∀ r < n, x r = superposed m φ c r := by
  classical
  have nd := nondegenerate hM hMd
  let cd := core (D := D) hM hMd
  let N : NormedAddCommGroup (FreeSpace n D) := cd.toNormedAddCommGroup
  let I : InnerProductSpace ℝ (FreeSpace n D) := InnerProductSpace.ofCore cd.toCore
  have hin : ∀ x y : FreeSpace n D, inner ℝ x y = bilin n M x.vec y.vec := fun _ _ => rfl
  let T : FreeSpace n D →ₗ[ℝ] FreeSpace n D :=
    ((formOf n D M).toDual nd).symm.toLinearMap ∘ₗ formOf n D B
  have hT : ∀ x y : FreeSpace n D, bilin n M (T x).vec y.vec = bilin n B x.vec y.vec := fun x y => by
    have := LinearMap.BilinForm.apply_toDual_symm_apply (hB := nd) (formOf n D B x) y
    exact this
  have hS : T.IsSymmetric := fun x y => by
    rw [hin, hin, hT, bilin_symm n M hM.symm, hT, bilin_symm n B hB.symm]
  let m := Module.finrank ℝ (FreeSpace n D)
  let b := hS.eigenvectorBasis (n := m) rfl
  let κ := hS.eigenvalues (n := m) rfl
  have hb : ∀ i, T (b i) = κ i • b i := fun i => hS.apply_eigenvectorBasis rfl i
  have hBM : ∀ i (y : FreeSpace n D), bilin n B y.vec (b i).vec = κ i * bilin n M y.vec (b i).vec := fun i y => by
    rw [bilin_symm n B hB.symm, ← hT, hb, vec_smul, bilin_smul_left, bilin_symm n M hM.symm y.vec]
  have hone : ∀ i j, bilin n M (b i).vec (b j).vec = if i = j then 1 else 0 := fun i j => by
    rw [← hin]; exact orthonormal_iff_ite.1 b.orthonormal i j
  refine ⟨m, fun i => if h : i < m then κ ⟨i, h⟩ else 0, fun i => if h : i < m then (b ⟨i, h⟩).vec else 0,
    fun i hi => ?_, fun i hi => ⟨fun r _ hD => ?_, fun r hr hD => ?_, fun r hr hD => ?_⟩, fun i hi j hj => ?_,
    fun x hx => ?_⟩
  · simp only [dif_pos hi]
    have h1 := hBM ⟨i, hi⟩ (b ⟨i, hi⟩)
    rw [hone, if_pos rfl, mul_one] at h1
    rw [← h1]
    exact hB.nonneg _
  · simp only [dif_pos hi]
    exact vec_zero _ _ (Or.inr hD)
  · simp only [dif_pos hi]
    have := hBM ⟨i, hi⟩ (unit r hr hD)
    rwa [bilin_unit, bilin_unit] at this
  · simp [act]
  · simp only [dif_pos hi, dif_pos hj]
    rw [hone]
    simp
  · let y : FreeSpace n D := (⟨fun r => if r < n then x r else 0, fun r hr => by
      rcases hr with h | h
      · exact if_neg (not_lt.2 h)
      · by_cases h' : r < n
        · exact (if_pos h').trans (hx r h' h)
        · exact if_neg h'⟩ : freeVectors n D)
    refine ⟨fun i => if h : i < m then inner ℝ (b ⟨i, h⟩) y else 0, fun r hr => ?_⟩
    have h1 : y.vec r = x r := if_pos hr
    have h2 : y.vec r = (∑ i, inner ℝ (b i) y • b i).vec r := by rw [b.sum_repr' y]
    rw [← h1, h2, vec_sum]
    unfold superposed
    rw [Finset.sum_range]
    refine Finset.sum_congr rfl fun i _ => ?_
    rw [vec_smul]
    beta_reduce
    rw [dif_pos i.2, dif_pos i.2]

theorem bilin_superposed {n m : ℕ} {Q : ℕ → ℕ → ℝ} {κ : ℕ → ℝ} {φ : ℕ → ℕ → ℝ}
    (h : ∀ i < m, ∀ j < m, bilin n Q (φ i) (φ j) = if i = j then κ i else 0) (c : ℕ → ℝ) :
    quad n Q (superposed m φ c) = ∑ i ∈ Finset.range m, κ i * c i ^ 2 := by
  have hsucc : ∀ k, superposed (k + 1) φ c = fun r => superposed k φ c r + c k * φ k r := fun k => by
    funext r; exact Finset.sum_range_succ _ _
  have hzero : superposed 0 φ c = fun r => (0 : ℝ) * φ 0 r := by funext r; simp [superposed]
  have e1 : ∀ x k, bilin n Q x (superposed k φ c) = ∑ j ∈ Finset.range k, c j * bilin n Q x (φ j) := by
    intro x k
    induction k with
    | zero => rw [hzero, bilin_smul_right]; simp
    | succ k ih => rw [hsucc, bilin_add_right, bilin_smul_right, Finset.sum_range_succ, ih]
  have e2 : ∀ y k, bilin n Q (superposed k φ c) y = ∑ i ∈ Finset.range k, c i * bilin n Q (φ i) y := by
    intro y k
    induction k with
    | zero => rw [hzero, bilin_smul_left]; simp
    | succ k ih => rw [hsucc, bilin_add_left, bilin_smul_left, Finset.sum_range_succ, ih]
  rw [quad_eq_bilin, e2]
  refine Finset.sum_congr rfl fun i hi => ?_
  rw [e1, Finset.sum_eq_single i]
  · rw [h i (Finset.mem_range.1 hi) i (Finset.mem_range.1 hi), if_pos rfl]; ring
  · intro j hj hne
    rw [h i (Finset.mem_range.1 hi) j (Finset.mem_range.1 hj), if_neg (Ne.symm hne), mul_zero]
  · intro h; exact absurd hi h

/-- The energy of a sum of orthogonal shapes is the sum of the energies of their oscillators. -/
theorem modes_energy {n m : ℕ} {D : ℕ → Prop} {M A B : ℕ → ℕ → ℝ} {κ γ : ℕ → ℝ} {φ : ℕ → ℕ → ℝ}
    (hφ : ∀ i < m, ModeOf n D M A B (κ i) (γ i) (φ i))
    (ho : ∀ i < m, ∀ j < m, bilin n M (φ i) (φ j) = if i = j then 1 else 0) (x : ℕ → ℝ × ℝ) :
    quad n M (superposed m φ fun i => (x i).2) + quad n B (superposed m φ fun i => (x i).1) =
      ∑ i ∈ Finset.range m, oscillatorEnergy (κ i) (x i) := by
  have hB : ∀ i < m, ∀ j < m, bilin n B (φ i) (φ j) = if i = j then κ i else 0 := by
    intro i hi j hj
    have : bilin n B (φ i) (φ j) = κ j * bilin n M (φ i) (φ j) := by
      rw [← bilin_eq_act, ← bilin_eq_act, Finset.mul_sum]
      refine Finset.sum_congr rfl fun r hr => ?_
      have hr := Finset.mem_range.1 hr
      by_cases hD : D r
      · rw [(hφ i hi).still r hr hD]; ring
      · rw [(hφ j hj).elastic r hr hD]; ring
    rw [this, ho i hi j hj]
    split_ifs with h
    · rw [h, mul_one]
    · rw [mul_zero]
  rw [bilin_superposed (κ := fun _ => 1) ho, bilin_superposed hB, ← Finset.sum_add_distrib]
  exact Finset.sum_congr rfl fun i _ => by simp only [oscillatorEnergy]; ring

end Conmech
