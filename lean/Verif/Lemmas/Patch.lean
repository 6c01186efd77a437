import Verif.Spec.Patch
import Verif.Lemmas.Boundary
import Verif.Props.MassStiffness
/-!
Neighbouring simplices: the area vectors of their common face cancel.
-/
namespace Conmech
open Spec

section
variable {K : Type _} [Field K] [LinearOrder K] [IsStrictOrderedRing K]

/-- What is needed of a family of simplices: `good` ones have the shape gradients `g`, the measure
`size` and the gradients do not depend on the order of the vertices, and moving one vertex scales the
measure by the barycentric coordinate. -/
structure SimplexFamily (d : ℕ) (good : (ℕ → ℕ → K) → Prop) (size : (ℕ → ℕ → K) → K)
    (g : (ℕ → ℕ → K) → ℕ → ℕ → K) : Prop where
  shape : ∀ X, good X → Shape d X (g X)
  reorder_good : ∀ X, good X → ∀ σ, Reorders (d + 1) σ → good fun i => X (σ i)
  reorder_size : ∀ X, ∀ σ, Reorders (d + 1) σ → size (fun i => X (σ i)) = size X
  replace : ∀ X Y, ∀ j < d + 1, (∀ i < d + 1, i ≠ j → X i = Y i) → ∀ w : ℕ → K,
    ∑ i ∈ Finset.range (d + 1), w i = 1 →
    (∀ k < d, X j k = ∑ i ∈ Finset.range (d + 1), w i * Y i k) → size X = |w j| * size Y

/-- Two simplices with all but one vertex in common, the remaining ones on the same side, overlap. -/
theorem overlap_of_same_side {d : ℕ} (hd : 0 < d) {X Y : ℕ → ℕ → K} {j : ℕ} (hj : j < d + 1)
    (hXY : ∀ i < d + 1, i ≠ j → X i = Y i) {w : ℕ → K} (hw : ∑ i ∈ Finset.range (d + 1), w i = 1)
    (hX : ∀ k < d, X j k = ∑ i ∈ Finset.range (d + 1), w i * Y i k) (hpos : 0 < w j) :
    ∃ x, StrictlyInside d X x ∧ StrictlyInside d Y x := by
  set M := ∑ i ∈ Finset.range (d + 1), |w i| with hM
  have hM0 : 0 ≤ M := Finset.sum_nonneg fun i _ => abs_nonneg _
  have hMi : ∀ i < d + 1, -M ≤ w i := fun i hi => by
    have := Finset.single_le_sum (f := fun i => |w i|) (fun i _ => abs_nonneg _)
      (Finset.mem_range.2 hi)
    have h2 := neg_abs_le (w i)
    linarith
  have hdK : (0 : K) < d := by exact_mod_cast hd
  have hden : (0 : K) < 2 + d * M := by positivity
  set s : K := 1 / (2 + d * M) with hs
  have hs0 : 0 < s := by positivity
  have hsm : s * (2 + d * M) = 1 := by rw [hs]; field_simp
  have hs1 : s < 1 := by
    have : 0 ≤ d * M := by positivity
    nlinarith
  let v : ℕ → K := fun i => if i = j then s else (1 - s) / d
  have hcard : ∀ c : K, ∑ i ∈ Finset.range (d + 1), (if i = j then 0 else c) = d * c := by
    intro c
    have : ∀ i ∈ Finset.range (d + 1), (if i = j then (0 : K) else c) = c - if i = j then c else 0 := by
      intro i _; split_ifs <;> ring
    rw [Finset.sum_congr rfl this, Finset.sum_sub_distrib, Finset.sum_ite_eq', if_pos (Finset.mem_range.2 hj)]
    simp; ring
  let u : ℕ → K := fun i => (if i = j then 0 else (1 - s) / d) + s * w i
  have hkey : ∀ k < d, ∑ i ∈ Finset.range (d + 1), v i * X i k =
      ∑ i ∈ Finset.range (d + 1), u i * Y i k := by
    intro k hk
    have e1 : ∀ i ∈ Finset.range (d + 1), v i * X i k =
        (if i = j then 0 else (1 - s) / d) * Y i k + if i = j then s * X i k else 0 := by
      intro i hi
      by_cases hij : i = j
      · simp [v, hij]
      · simp [v, hij, hXY i (Finset.mem_range.1 hi) hij]
    rw [Finset.sum_congr rfl e1, Finset.sum_add_distrib, Finset.sum_ite_eq',
      if_pos (Finset.mem_range.2 hj), hX k hk, Finset.mul_sum, ← Finset.sum_add_distrib]
    exact Finset.sum_congr rfl fun i _ => by simp only [u]; ring
  refine ⟨fun k => ∑ i ∈ Finset.range (d + 1), v i * X i k, ⟨v, ?_, ?_, fun _ _ => rfl⟩,
    ⟨u, ?_, ?_, hkey⟩⟩
  · intro i _
    simp only [v]
    split_ifs
    · exact hs0
    · exact div_pos (by linarith) hdK
  · have : ∀ i ∈ Finset.range (d + 1), v i = (if i = j then 0 else (1 - s) / d) + if i = j then s else 0 := by
      intro i _; simp only [v]; split_ifs <;> ring
    rw [Finset.sum_congr rfl this, Finset.sum_add_distrib, hcard, Finset.sum_ite_eq',
      if_pos (Finset.mem_range.2 hj)]
    field_simp; ring
  · intro i hi
    simp only [u]
    by_cases hij : i = j
    · rw [if_pos hij, hij, zero_add]; exact mul_pos hs0 hpos
    · rw [if_neg hij]
      have h1 := mul_le_mul_of_nonneg_left (hMi i hi) hs0.le
      have h2 : s * M < (1 - s) / d := by
        rw [lt_div_iff₀ hdK]; nlinarith
      linarith
  · simp only [u]
    rw [Finset.sum_add_distrib, hcard, ← Finset.mul_sum, hw]
    field_simp; ring

/-- The area vectors of a common face, seen from the two sides, cancel. -/
theorem SimplexFamily.cancel {d : ℕ} (hd : 0 < d) {good : (ℕ → ℕ → K) → Prop}
    {size : (ℕ → ℕ → K) → K} {g : (ℕ → ℕ → K) → ℕ → ℕ → K} (F : SimplexFamily d good size g)
    {X Y : ℕ → ℕ → K} (gX : good X) (gY : good Y) {j : ℕ} (hj : j < d + 1)
    (hXY : ∀ i < d + 1, i ≠ j → X i = Y i)
    (hno : ∀ x, StrictlyInside d X x → ¬ StrictlyInside d Y x) (k : ℕ) (hk : k < d) :
    size X * g X j k + size Y * g Y j k = 0 := by
  have sX := F.shape X gX
  have sY := F.shape Y gY
  obtain ⟨c, hc⟩ := sY.kron
  let w : ℕ → K := fun i => c i + ∑ k ∈ Finset.range d, g Y i k * X j k
  -- barycentric coordinates of the vertex `X j` in `Y`
  have hflat : ∀ x : ℕ → K, ∑ i ∈ Finset.range (d + 1), ∑ k ∈ Finset.range d, g Y i k * x k = 0 := by
    intro x
    rw [Finset.sum_comm]
    exact Finset.sum_eq_zero fun k hk => by
      rw [← Finset.sum_mul, sY.sum_zero k (Finset.mem_range.1 hk), zero_mul]
  have hsc : ∑ i ∈ Finset.range (d + 1), c i = 1 := by
    have : ∑ i ∈ Finset.range (d + 1), (c i + ∑ k ∈ Finset.range d, g Y i k * Y 0 k) = 1 := by
      rw [Finset.sum_congr rfl fun i hi => hc i (Finset.mem_range.1 hi) 0 (by omega)]
      simp
    rwa [Finset.sum_add_distrib, hflat, add_zero] at this
  have hw : ∑ i ∈ Finset.range (d + 1), w i = 1 := by
    simp only [w]
    rw [Finset.sum_add_distrib, hsc, hflat, add_zero]
  have hrep : ∀ k < d, ∀ x : ℕ → K, ∑ i ∈ Finset.range (d + 1),
      (∑ l ∈ Finset.range d, g Y i l * x l) * Y i k = x k := by
    intro k hk x
    simp only [Finset.sum_mul]
    rw [Finset.sum_comm]
    rw [Finset.sum_congr rfl fun l hl => by
      rw [Finset.sum_congr rfl fun i _ => show g Y i l * x l * Y i k = x l * (Y i k * g Y i l) by ring,
        ← Finset.mul_sum, sY.repro l (Finset.mem_range.1 hl) k hk]]
    simp [hk]
  have hcY : ∀ k < d, ∑ i ∈ Finset.range (d + 1), c i * Y i k = 0 := by
    intro k hk
    have h0 := hrep k hk (Y 0)
    have : ∑ i ∈ Finset.range (d + 1), (c i + ∑ k ∈ Finset.range d, g Y i k * Y 0 k) * Y i k = Y 0 k := by
      rw [Finset.sum_congr rfl fun i hi => by rw [hc i (Finset.mem_range.1 hi) 0 (by omega)]]
      simp
    simp only [add_mul, Finset.sum_add_distrib] at this
    rw [h0] at this
    linarith
  have hX : ∀ k < d, X j k = ∑ i ∈ Finset.range (d + 1), w i * Y i k := by
    intro k hk
    simp only [w, add_mul, Finset.sum_add_distrib]
    rw [hcY k hk, hrep k hk, zero_add]
  -- the gradient of the face in `Y` is a multiple of the one in `X`
  have hG : IsGradient d X (fun i => if i = j then w j else 0) (g Y j) := by
    refine ⟨c j, fun i hi => ?_⟩
    by_cases hij : i = j
    · simp [hij, w]
    · show (if i = j then w j else 0) = _
      rw [if_neg hij, hXY i hi hij, hc j hj i hi, if_neg (Ne.symm hij)]
  have hgrad : ∀ k < d, g Y j k = w j * g X j k := by
    intro k hk
    rw [← sX.gradient_eq hG hk]
    simp [Finset.sum_ite_eq', hj]
  have hne : w j ≠ 0 := by
    intro h0
    have hz : ∀ k < d, g Y j k = 0 := fun k hk => by rw [hgrad k hk, h0, zero_mul]
    have hsum : ∀ i, ∑ k ∈ Finset.range d, g Y j k * Y i k = 0 := fun i =>
      Finset.sum_eq_zero fun k hk => by rw [hz k (Finset.mem_range.1 hk), zero_mul]
    have h1 := hc j hj j hj
    obtain ⟨i, hi, hij⟩ : ∃ i < d + 1, i ≠ j := by
      by_cases h : j = 0
      · exact ⟨1, by omega, by omega⟩
      · exact ⟨0, by omega, by omega⟩
    have h2 := hc j hj i hi
    rw [hsum, add_zero, if_pos rfl] at h1
    rw [hsum, add_zero, if_neg hij.symm] at h2
    exact one_ne_zero (h1.symm.trans h2)
  have hneg : w j < 0 := by
    rcases lt_or_gt_of_ne hne with h | h
    · exact h
    · obtain ⟨x, h1, h2⟩ := overlap_of_same_side hd hj hXY hw hX h
      exact absurd h2 (hno x h1)
  rw [F.replace X Y j hj hXY w hw hX, hgrad k hk, abs_of_neg hneg]
  ring

/-! ### triangles and tetrahedra -/

theorem Plane.family : SimplexFamily 2 (fun X : ℕ → ℕ → K => det2 X ≠ 0) area Plane.gradient where
  shape X h := Plane.shape X h
  reorder_good X h σ hσ := by
    rw [← abs_pos, abs_det2_reorder X σ hσ, abs_pos]; exact h
  reorder_size X σ hσ := by unfold area; rw [abs_det2_reorder X σ hσ]
  replace X Y j hj hXY w hw hX := by
    have h0 := hX 0 (by omega)
    have h1 := hX 1 (by omega)
    simp only [Finset.sum_range_succ, Finset.sum_range_zero, zero_add] at h0 h1 hw
    have : det2 X = w j * det2 Y := by
      interval_cases j
      · have a := hXY 1 (by omega) (by omega)
        have b := hXY 2 (by omega) (by omega)
        have e : w 1 = 1 - w 0 - w 2 := by linear_combination hw
        simp only [det2, h0, h1, a, b, e]; ring
      · have a := hXY 0 (by omega) (by omega)
        have b := hXY 2 (by omega) (by omega)
        have e : w 0 = 1 - w 1 - w 2 := by linear_combination hw
        simp only [det2, h0, h1, a, b, e]; ring
      · have a := hXY 0 (by omega) (by omega)
        have b := hXY 1 (by omega) (by omega)
        have e : w 0 = 1 - w 1 - w 2 := by linear_combination hw
        simp only [det2, h0, h1, a, b, e]; ring
    unfold area
    rw [this, abs_mul]; ring

theorem Space.family : SimplexFamily 3 (fun X : ℕ → ℕ → K => det3 X ≠ 0) Spec.volume Space.gradient where
  shape X h := Space.shape X h
  reorder_good X h σ hσ := by
    rw [← abs_pos, abs_det3_reorder X σ hσ, abs_pos]; exact h
  reorder_size X σ hσ := by unfold Spec.volume; rw [abs_det3_reorder X σ hσ]
  replace X Y j hj hXY w hw hX := by
    have h0 := hX 0 (by omega)
    have h1 := hX 1 (by omega)
    have h2 := hX 2 (by omega)
    simp only [Finset.sum_range_succ, Finset.sum_range_zero, zero_add] at h0 h1 h2 hw
    have : det3 X = w j * det3 Y := by
      interval_cases j
      · have a := hXY 1 (by omega) (by omega)
        have b := hXY 2 (by omega) (by omega)
        have c := hXY 3 (by omega) (by omega)
        have e : w 1 = 1 - w 0 - w 2 - w 3 := by linear_combination hw
        simp only [det3, h0, h1, h2, a, b, c, e]; ring
      · have a := hXY 0 (by omega) (by omega)
        have b := hXY 2 (by omega) (by omega)
        have c := hXY 3 (by omega) (by omega)
        have e : w 0 = 1 - w 1 - w 2 - w 3 := by linear_combination hw
        simp only [det3, h0, h1, h2, a, b, c, e]; ring
      · have a := hXY 0 (by omega) (by omega)
        have b := hXY 1 (by omega) (by omega)
        have c := hXY 3 (by omega) (by omega)
        have e : w 0 = 1 - w 1 - w 2 - w 3 := by linear_combination hw
        simp only [det3, h0, h1, h2, a, b, c, e]; ring
      · have a := hXY 0 (by omega) (by omega)
        have b := hXY 1 (by omega) (by omega)
        have c := hXY 2 (by omega) (by omega)
        have e : w 0 = 1 - w 1 - w 2 - w 3 := by linear_combination hw
        simp only [det3, h0, h1, h2, a, b, c, e]; ring
    unfold Spec.volume
    rw [this, abs_mul]; ring

end

/-! ### faces of a mesh -/

/-- The face of element number `t` opposite to its vertex number `j`. -/
def faceAt (elements : List (List ℕ)) (t j : ℕ) : Multiset ℕ :=
  (((elements.getD t []).eraseIdx j : List ℕ) : Multiset ℕ)

/-- The faces of a mesh, numbered by element and opposite vertex. -/
def faceNumbers (d : ℕ) (elements : List (List ℕ)) : Finset (ℕ × ℕ) :=
  Finset.range elements.length ×ˢ Finset.range (d + 1)

theorem nat_sum_range {α : Type _} (l : List α) (d : α) (f : α → ℕ) :
    (l.map f).sum = ∑ t ∈ Finset.range l.length, f (l.getD t d) := by
  induction l with
  | nil => simp
  | cons a l ih =>
    rw [List.map_cons, List.sum_cons, List.length_cons, Finset.sum_range_succ', ih]
    simp [add_comm]

theorem count_map_range (n : ℕ) (φ : ℕ → Multiset ℕ) (f : Multiset ℕ) :
    ((List.range n).map φ).count f = ∑ j ∈ Finset.range n, if φ j = f then 1 else 0 := by
  induction n with
  | zero => simp
  | succ n ih =>
    rw [List.range_succ, List.map_append, List.count_append, ih, Finset.sum_range_succ]
    by_cases h : φ n = f <;> simp [h]

theorem count_faces {d : ℕ} {elements : List (List ℕ)} (hl : ∀ e ∈ elements, e.length = d + 1)
    (f : Multiset ℕ) :
    (faces elements).count f =
      ((faceNumbers d elements).filter fun x => faceAt elements x.1 x.2 = f).card := by
  rw [Finset.card_filter, faceNumbers, Finset.sum_product]
  unfold faces
  rw [Multiset.count_bind, Multiset.map_coe, Multiset.sum_coe, nat_sum_range _ []]
  refine Finset.sum_congr rfl fun t ht => ?_
  have he := hl _ (getD_mem (Finset.mem_range.1 ht))
  rw [Multiset.map_coe, ← faces_of_row, Multiset.coe_count, he]
  simp only [surface_eq_eraseIdx]
  exact count_map_range _ _ _

section
variable {K : Type _} [Field K] [LinearOrder K] [IsStrictOrderedRing K]

/-- The vertices of a simplex with shape functions are different. -/
theorem Shape.nodup {d : ℕ} {nodes : ℕ → ℕ → K} {e : List ℕ} {g : ℕ → ℕ → K} (hl : e.length = d + 1)
    (h : Shape d (vertices nodes e) g) : e.Nodup := by
  rw [List.nodup_iff_injective_getElem]
  intro i j hij
  obtain ⟨c, hc⟩ := h.kron
  have hi : i.1 < d + 1 := by have := i.2; omega
  have hj : j.1 < d + 1 := by have := j.2; omega
  have h1 := hc i hi i hi
  have h2 := hc i hi j hj
  have e1 : vertices nodes e i = vertices nodes e j := by
    unfold vertices
    rw [List.getD_eq_getElem _ _ i.2, List.getD_eq_getElem _ _ j.2]
    simp only at hij
    rw [hij]
  rw [if_pos rfl] at h1
  rw [← e1, h1] at h2
  by_contra hne
  rw [if_neg (fun h => hne (Fin.ext h))] at h2
  exact one_ne_zero h2

/-- Two elements with a common face: a reordering that matches the vertices of the face. -/
theorem face_reorder {d : ℕ} {e e' : List ℕ} (hl : e.length = d + 1) (hl' : e'.length = d + 1)
    (hn : e.Nodup) (hn' : e'.Nodup) {j j' : ℕ} (hj : j < d + 1) (hj' : j' < d + 1)
    (hp : (e.eraseIdx j).Perm (e'.eraseIdx j')) :
    ∃ σ, Reorders (d + 1) σ ∧ σ j = j' ∧ ∀ i < d + 1, i ≠ j → e'.getD (σ i) 0 = e.getD i 0 := by
  have hmem : ∀ i < d + 1, i ≠ j → e.getD i 0 ∈ e'.eraseIdx j' := by
    intro i hi hij
    rw [← hp.mem_iff, List.mem_eraseIdx_iff_getElem]
    refine ⟨i, by omega, hij, ?_⟩
    rw [List.getD_eq_getElem]
  have hidx : ∀ i < d + 1, i ≠ j → ∃ m < d + 1, m ≠ j' ∧ e'.getD m 0 = e.getD i 0 := by
    intro i hi hij
    obtain ⟨m, hm, hmj, h⟩ := List.mem_eraseIdx_iff_getElem.1 (hmem i hi hij)
    exact ⟨m, by omega, hmj, by rw [List.getD_eq_getElem _ _ hm, h]⟩
  choose! m hm using hidx
  refine ⟨fun i => if i = j then j' else m i, ⟨?_, ?_⟩, by simp, ?_⟩
  · intro i hi
    simp only
    split_ifs with h
    · exact hj'
    · exact (hm i hi h).1
  · intro a ha b hb hab
    simp only at hab
    split_ifs at hab with h1 h2 h2
    · rw [h1, h2]
    · exact absurd hab.symm (hm b hb h2).2.1
    · exact absurd hab (hm a ha h1).2.1
    · have e1 := (hm a ha h1).2.2
      rw [hab, (hm b hb h2).2.2] at e1
      rw [List.getD_eq_getElem _ _ (by omega), List.getD_eq_getElem _ _ (by omega)] at e1
      exact (List.Nodup.getElem_inj_iff hn).1 e1.symm
  · intro i hi hij
    simp only [hij, if_false]
    exact (hm i hi hij).2.2

/-- A face in the interior of a mesh without overlaps: the area vectors of the elements at it cancel. -/
theorem fibre_zero {d : ℕ} (hd : 0 < d) {good : (ℕ → ℕ → K) → Prop}
    {size : (ℕ → ℕ → K) → K} {g : (ℕ → ℕ → K) → ℕ → ℕ → K} (F : SimplexFamily d good size g)
    {N : ℕ} {elements : List (List ℕ)} {nodes : ℕ → ℕ → K} (hv : ValidElements d N elements)
    (hgood : ∀ e ∈ elements, good (vertices nodes e)) (hno : NonOverlapping d elements nodes)
    {x y : ℕ × ℕ} (hx : x ∈ faceNumbers d elements) (hy : y ∈ faceNumbers d elements)
    (hxy : x ≠ y) (hf : faceAt elements x.1 x.2 = faceAt elements y.1 y.2) (k : ℕ) (hk : k < d) :
    let n : ℕ × ℕ → K := fun x => size (vertices nodes (elements.getD x.1 [])) *
      g (vertices nodes (elements.getD x.1 [])) x.2 k
    n x + n y = 0 ∧ x.1 ≠ y.1 := by
  intro n
  obtain ⟨t, j⟩ := x
  obtain ⟨t', j'⟩ := y
  simp only [faceNumbers, Finset.mem_product, Finset.mem_range] at hx hy
  obtain ⟨ht, hj⟩ := hx
  obtain ⟨ht', hj'⟩ := hy
  have he := getD_mem ht
  have he' := getD_mem ht'
  have hn := (F.shape _ (hgood _ he)).nodup (hv _ he).1
  have hn' := (F.shape _ (hgood _ he')).nodup (hv _ he').1
  simp only [faceAt, Multiset.coe_eq_coe] at hf
  have htt : t ≠ t' := by
    rintro rfl
    have hjj : j ≠ j' := fun h => hxy (by rw [h])
    have hlen := (hv _ he).1
    have h1 : (elements.getD t [])[j'] ∈ (elements.getD t []).eraseIdx j := by
      rw [List.mem_eraseIdx_iff_getElem]
      exact ⟨j', by omega, Ne.symm hjj, rfl⟩
    rw [hf.mem_iff, List.mem_eraseIdx_iff_getElem] at h1
    obtain ⟨m, hm, hmj, h⟩ := h1
    exact hmj ((List.Nodup.getElem_inj_iff hn).1 h)
  refine ⟨?_, htt⟩
  obtain ⟨σ, hσ, hσj, hmatch⟩ := face_reorder (hv _ he).1 (hv _ he').1 hn hn' hj hj' hf
  set X := vertices nodes (elements.getD t []) with hX
  set Y := vertices nodes (elements.getD t' []) with hY
  have gX : good X := hgood _ he
  have gY : good Y := hgood _ he'
  have gYσ := F.reorder_good Y gY σ hσ
  have hcancel := F.cancel hd gX gYσ hj (fun i hi hij => by
      funext k
      simp only [hX, hY, vertices, hmatch i hi hij])
    (fun z h1 h2 => by
      refine hno t ht t' ht' htt z h1 ?_
      obtain ⟨w, w1, w2, w3⟩ := h2
      -- weights in the original order
      have hbij : ∀ f : ℕ → K, ∑ i ∈ Finset.range (d + 1), f (σ i) = ∑ i ∈ Finset.range (d + 1), f i := by
        intro f
        refine Finset.sum_nbij σ (fun i hi => Finset.mem_range.2 (hσ.1 i (Finset.mem_range.1 hi)))
          (fun a ha b hb h => hσ.2 a (by simpa using ha) b (by simpa using hb) h) ?_ (fun _ _ => rfl)
        exact Finset.surjOn_of_injOn_of_card_le σ
          (fun i hi => Finset.mem_coe.2 (Finset.mem_range.2 (hσ.1 i (by simpa using hi))))
          (fun a ha b hb h => hσ.2 a (by simpa using ha) b (by simpa using hb) h) le_rfl
      have hsurj : ∀ m < d + 1, ∃ i < d + 1, σ i = m := by
        intro m hm
        have := Finset.surjOn_of_injOn_of_card_le (s := Finset.range (d + 1))
          (t := Finset.range (d + 1)) σ
          (fun i hi => Finset.mem_coe.2 (Finset.mem_range.2 (hσ.1 i (by simpa using hi))))
          (fun a ha b hb h => hσ.2 a (by simpa using ha) b (by simpa using hb) h) le_rfl
          (Finset.mem_coe.2 (Finset.mem_range.2 hm))
        obtain ⟨i, hi, h⟩ := this
        exact ⟨i, by simpa using hi, h⟩
      choose! τ hτ using hsurj
      have hτσ : ∀ i < d + 1, τ (σ i) = i := fun i hi =>
        hσ.2 _ (hτ _ (hσ.1 i hi)).1 _ hi (hτ _ (hσ.1 i hi)).2
      refine ⟨fun m => w (τ m), fun m hm => w1 _ (hτ m hm).1, ?_, ?_⟩
      · rw [← hbij fun m => w (τ m)]
        rw [Finset.sum_congr rfl fun i hi => by rw [hτσ i (Finset.mem_range.1 hi)]]
        exact w2
      · intro k hk
        rw [← hbij fun m => w (τ m) * Y m k, w3 k hk]
        exact Finset.sum_congr rfl fun i hi => by rw [hτσ i (Finset.mem_range.1 hi)]) k hk
  have hgr := (F.shape Y gY).reorder (F.shape _ gYσ) hσ hj hk
  rw [F.reorder_size Y σ hσ, hgr, hσj] at hcancel
  exact hcancel

/-- The shape function of a node in the interior has no mean gradient. -/
theorem interior_flux {d : ℕ} (hd : 0 < d) {good : (ℕ → ℕ → K) → Prop}
    {size : (ℕ → ℕ → K) → K} {g : (ℕ → ℕ → K) → ℕ → ℕ → K} (F : SimplexFamily d good size g)
    {N : ℕ} {elements : List (List ℕ)} {nodes : ℕ → ℕ → K} (hv : ValidElements d N elements)
    (hgood : ∀ e ∈ elements, good (vertices nodes e)) (hno : NonOverlapping d elements nodes)
    {p : ℕ} (hp : ¬ BoundaryNode elements p) (k : ℕ) (hk : k < d) :
    sumElements elements (fun _ e => size (vertices nodes e) *
      ∑ i ∈ Finset.range (d + 1), (if e.getD i 0 = p then 1 else 0) * g (vertices nodes e) i k) = 0 := by
  classical
  have hlen : ∀ e ∈ elements, e.length = d + 1 := fun e he => (hv e he).1
  let n : ℕ × ℕ → K := fun x => size (vertices nodes (elements.getD x.1 [])) *
      g (vertices nodes (elements.getD x.1 [])) x.2 k
  let S := (faceNumbers d elements).filter fun x => p ∈ faceAt elements x.1 x.2
  have h1 : sumElements elements (fun _ e => size (vertices nodes e) *
      ∑ i ∈ Finset.range (d + 1), (if e.getD i 0 = p then 1 else 0) * g (vertices nodes e) i k) =
      - ∑ x ∈ S, n x := by
    rw [Finset.sum_filter, faceNumbers, Finset.sum_product, ← Finset.sum_neg_distrib]
    unfold sumElements
    refine Finset.sum_congr rfl fun t ht => ?_
    have he := getD_mem (Finset.mem_range.1 ht)
    set e := elements.getD t [] with hedef
    have hsh := F.shape _ (hgood e he)
    have hnd := hsh.nodup (hlen e he)
    have hz : size (vertices nodes e) * ∑ i ∈ Finset.range (d + 1),
        (if p ∈ e then 1 else 0) * g (vertices nodes e) i k = 0 := by
      rw [← Finset.mul_sum, hsh.sum_zero k hk, mul_zero, mul_zero]
    rw [eq_neg_iff_add_eq_zero]
    refine Eq.trans ?_ hz
    simp only
    rw [Finset.mul_sum, Finset.mul_sum, ← Finset.sum_add_distrib]
    refine Finset.sum_congr rfl fun j hj => ?_
    have hj := Finset.mem_range.1 hj
    have hje : j < e.length := by rw [hlen e he]; exact hj
    have hmem : p ∈ faceAt elements t j ↔ p ∈ e ∧ e.getD j 0 ≠ p := by
      simp only [faceAt, Multiset.mem_coe, ← hedef, List.mem_eraseIdx_iff_getElem]
      rw [List.getD_eq_getElem _ _ hje, List.mem_iff_getElem]
      constructor
      · rintro ⟨i, hi, hij, rfl⟩
        exact ⟨⟨i, hi, rfl⟩, fun h => hij ((List.Nodup.getElem_inj_iff hnd).1 h.symm)⟩
      · rintro ⟨⟨i, hi, rfl⟩, h⟩
        exact ⟨i, hi, fun hij => h (by subst hij; rfl), rfl⟩
    have hin : e.getD j 0 = p → p ∈ e := fun h => by
      rw [← h, List.getD_eq_getElem _ _ hje]; exact List.getElem_mem _
    simp only [n, ← hedef]
    by_cases h1 : p ∈ e <;> by_cases h2 : e.getD j 0 = p
    · rw [if_pos h2, if_neg (fun h => (hmem.1 h).2 h2), if_pos h1]; ring
    · rw [if_neg h2, if_pos (hmem.2 ⟨h1, h2⟩), if_pos h1]; ring
    · exact absurd (hin h2) h1
    · rw [if_neg h2, if_neg (fun h => h1 (hmem.1 h).1), if_neg h1]; ring
  rw [h1, neg_eq_zero]
  rw [← Finset.sum_fiberwise_of_maps_to (t := S.image fun x => faceAt elements x.1 x.2)
    (g := fun x => faceAt elements x.1 x.2) fun x hx => Finset.mem_image_of_mem _ hx]
  refine Finset.sum_eq_zero fun f hf => ?_
  obtain ⟨x0, hx0, rfl⟩ := Finset.mem_image.1 hf
  have hx0' := Finset.mem_filter.1 hx0
  set f := faceAt elements x0.1 x0.2 with hfdef
  have hset : (S.filter fun x => faceAt elements x.1 x.2 = f) =
      (faceNumbers d elements).filter fun x => faceAt elements x.1 x.2 = f := by
    ext x
    simp only [S, Finset.mem_filter]
    constructor
    · rintro ⟨⟨a, _⟩, b⟩; exact ⟨a, b⟩
    · rintro ⟨a, b⟩; exact ⟨⟨a, by rw [b]; exact hx0'.2⟩, b⟩
  rw [hset]
  set T := (faceNumbers d elements).filter fun x => faceAt elements x.1 x.2 = f with hT
  have hx0T : x0 ∈ T := Finset.mem_filter.2 ⟨hx0'.1, rfl⟩
  have hcancel : ∀ x ∈ T, ∀ y ∈ T, x ≠ y → n x + n y = 0 := by
    intro x hx y hy hxy
    rw [hT, Finset.mem_filter] at hx hy
    exact (fibre_zero hd F hv hgood hno hx.1 hy.1 hxy (hx.2.trans hy.2.symm) k hk).1
  -- not one element only, and not three
  have hone : T.card ≠ 1 := by
    intro h
    refine hp ⟨f, ?_, hx0'.2⟩
    unfold BoundaryFace
    rw [count_faces hlen, h]
  have hpos : 0 < T.card := Finset.card_pos.2 ⟨x0, hx0T⟩
  rcases Nat.lt_or_ge 2 T.card with h3 | h2
  · -- three elements at one face would overlap
    obtain ⟨a, ha, b, hb, c, hc, hab, hac, hbc⟩ := Finset.two_lt_card.1 h3
    have e1 := hcancel a ha b hb hab
    have e2 := hcancel a ha c hc hac
    have e3 := hcancel b hb c hc hbc
    have ha0 : n a = 0 := by linarith
    refine Finset.sum_eq_zero fun x hx => ?_
    by_cases hxa : x = a
    · rw [hxa]; exact ha0
    · have := hcancel x hx a ha hxa
      linarith
  · obtain ⟨a, b, hab, h⟩ := Finset.card_eq_two.1 (show T.card = 2 by omega)
    rw [h, Finset.sum_pair hab]
    exact hcancel a (by rw [h]; simp) b (by rw [h]; simp) hab

end
end Conmech
