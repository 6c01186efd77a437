import Verif.Lemmas.Invariance
import Mathlib.Data.Finset.Prod
/-!
C90: the matrices of a moved, enlarged or renumbered mesh.
-/
namespace Conmech
open Spec

section
variable {K : Type _} [Field K] [LinearOrder K] [IsStrictOrderedRing K]
variable {N : ℕ} {elements : List (List ℕ)} {nodes : ℕ → ℕ → K} {R : ℕ → ℕ → K}

theorem abs_unit {s : K} (h : s ^ 2 = 1) : |s| = 1 := by
  rcases mul_eq_zero.1 (show (s - 1) * (s + 1) = 0 by linear_combination h) with h | h
  · rw [sub_eq_zero.1 h, abs_one]
  · rw [eq_neg_of_add_eq_zero_left h, abs_neg, abs_one]

theorem area_similar (c : K) (h : Orthogonal 2 R) (a : ℕ → K) (X : ℕ → ℕ → K) :
    area (similar 2 c R a X) = c ^ 2 * area X := by
  obtain ⟨s, hs, hd⟩ := det2_similar c h a X
  unfold area
  rw [hd, abs_mul, abs_unit hs, one_mul, abs_mul, abs_of_nonneg (sq_nonneg c)]
  ring

theorem volume_similar (c : K) (h : Orthogonal 3 R) (a : ℕ → K) (X : ℕ → ℕ → K) :
    Spec.volume (similar 3 c R a X) = |c| ^ 3 * Spec.volume X := by
  obtain ⟨s, hs, hd⟩ := det3_similar c h a X
  unfold Spec.volume
  rw [hd, abs_mul, abs_unit hs, one_mul, abs_mul, abs_pow]
  ring

theorem nondegenerate2_similar (hn : Nondegenerate2 elements nodes) (h : Orthogonal 2 R) {c : K}
    (hc : c ≠ 0) (a : ℕ → K) : Nondegenerate2 elements (similar 2 c R a nodes) := by
  intro e he
  obtain ⟨s, hs, hd⟩ := det2_similar c h a (vertices nodes e)
  have : vertices (similar 2 c R a nodes) e = similar 2 c R a (vertices nodes e) := rfl
  rw [this, hd]
  have hs0 : s ≠ 0 := fun h0 => by rw [h0] at hs; norm_num at hs
  exact mul_ne_zero hs0 (mul_ne_zero (pow_ne_zero 2 hc) (hn e he))

theorem nondegenerate3_similar (hn : Nondegenerate3 elements nodes) (h : Orthogonal 3 R) {c : K}
    (hc : c ≠ 0) (a : ℕ → K) : Nondegenerate3 elements (similar 3 c R a nodes) := by
  intro e he
  obtain ⟨s, hs, hd⟩ := det3_similar c h a (vertices nodes e)
  have : vertices (similar 3 c R a nodes) e = similar 3 c R a (vertices nodes e) := rfl
  rw [this, hd]
  have hs0 : s ≠ 0 := fun h0 => by rw [h0] at hs; norm_num at hs
  exact mul_ne_zero hs0 (mul_ne_zero (pow_ne_zero 3 hc) (hn e he))

/-- The feature matrices of a moved mesh. -/
theorem edges_similar {d : ℕ} {feat : (ℕ → ℕ → K) → ℕ → ℕ → List K} {size : (ℕ → ℕ → K) → K}
    {g : (ℕ → ℕ → K) → ℕ → ℕ → K} (hl : AllLocal d feat elements nodes size g)
    (h : Orthogonal d R) {c m : K} (hc : c ≠ 0) (a : ℕ → K)
    (hl' : AllLocal d feat elements (similar d c R a nodes) size g)
    (hm : ∀ X, size (similar d c R a X) = m * size X) (p q : ℕ) :
    let F := edgesFeatures (d + 1) feat elements nodes
    let F' := edgesFeatures (d + 1) feat elements (similar d c R a nodes)
    F' 0 p q = m * F 0 p q ∧ F' 1 p q = m * F 1 p q ∧
    (∀ k < d, F' (2 + k) p q = m * c⁻¹ * ∑ k' ∈ Finset.range d, R k k' * F (2 + k') p q) ∧
    ∀ k < d, ∀ l < d, F' (2 + d * (k + 1) + l) p q = m * c⁻¹ ^ 2 *
      ∑ k' ∈ Finset.range d, ∑ l' ∈ Finset.range d, R k k' * R l l' * F (2 + d * (k' + 1) + l') p q := by
  intro F F'
  have hg : ∀ e ∈ elements, ∀ i < d + 1, ∀ k < d, g (vertices (similar d c R a nodes) e) i k =
      c⁻¹ * ∑ l ∈ Finset.range d, R k l * g (vertices nodes e) i l := fun e he i hi k hk =>
    Shape.unique ((hl e he).shape.similar h hc a) (hl' e he).shape hi hk
  have hz : ∀ e, size (vertices (similar d c R a nodes) e) = m * size (vertices nodes e) := fun e => hm _
  refine ⟨?_, ?_, ?_, ?_⟩
  · have := edges_transfer (d + 1) feat elements nodes (similar d c R a nodes) 0 p q {()} (fun _ => m)
      (fun _ => 0) fun e he i hi j hj => by
        rw [(hl' e he).vol i hi j hj, Finset.sum_singleton, (hl e he).vol i hi j hj, hz, mul_assoc]
    simpa using this
  · have := edges_transfer (d + 1) feat elements nodes (similar d c R a nodes) 1 p q {()} (fun _ => m)
      (fun _ => 1) fun e he i hi j hj => by
        rw [(hl' e he).mass i hi j hj, Finset.sum_singleton, (hl e he).mass i hi j hj, hz, mul_assoc]
    simpa using this
  · intro k hk
    rw [show F' (2 + k) p q = _ from edges_transfer (d + 1) feat elements nodes (similar d c R a nodes)
      (2 + k) p q (Finset.range d) (fun k' => m * c⁻¹ * R k k') (fun k' => 2 + k') ?_, Finset.mul_sum]
    · exact Finset.sum_congr rfl fun k' _ => mul_assoc _ _ _
    · intro e he i hi j hj
      rw [(hl' e he).grad k hk i hi j hj, hz, hg e he j hj k hk]
      simp only [Finset.mul_sum]
      refine Finset.sum_congr rfl fun k' hk' => ?_
      rw [(hl e he).grad k' (Finset.mem_range.1 hk') i hi j hj]
      ring
  · intro k hk l hl2
    rw [show F' (2 + d * (k + 1) + l) p q = _ from edges_transfer (d + 1) feat elements nodes
      (similar d c R a nodes) (2 + d * (k + 1) + l) p q (Finset.range d ×ˢ Finset.range d)
      (fun s => m * c⁻¹ ^ 2 * (R k s.1 * R l s.2)) (fun s => 2 + d * (s.1 + 1) + s.2) ?_,
      Finset.sum_product, Finset.mul_sum]
    · refine Finset.sum_congr rfl fun k' _ => ?_
      rw [Finset.mul_sum]
      exact Finset.sum_congr rfl fun l' _ => mul_assoc _ _ _
    · intro e he i hi j hj
      rw [(hl' e he).stiff k hk l hl2 i hi j hj, hz, hg e he i hi k hk, hg e he j hj l hl2,
        Finset.sum_product]
      rw [Finset.sum_congr rfl fun k' hk' => Finset.sum_congr rfl fun l' hl3 => by
        rw [(hl e he).stiff k' (Finset.mem_range.1 hk') l' (Finset.mem_range.1 hl3) i hi j hj]]
      have : m * size (vertices nodes e) * (c⁻¹ * (∑ l ∈ Finset.range d, R k l * g (vertices nodes e) i l) *
          (c⁻¹ * ∑ l_1 ∈ Finset.range d, R l l_1 * g (vertices nodes e) j l_1)) =
          m * size (vertices nodes e) * c⁻¹ ^ 2 * ((∑ l ∈ Finset.range d, R k l * g (vertices nodes e) i l) *
          (∑ l_1 ∈ Finset.range d, R l l_1 * g (vertices nodes e) j l_1)) := by ring
      rw [this, Finset.sum_mul_sum]
      simp only [Finset.mul_sum]
      exact Finset.sum_congr rfl fun k' _ => Finset.sum_congr rfl fun l' _ => by ring

/-- C90: the matrices of a triangle mesh after any rotation or reflection `R`, enlargement `c` and
translation `a`: areas and masses are multiplied by `c²`, the derivatives are turned and divided by `c`. -/
theorem C90_similar2 (hn : Nondegenerate2 elements nodes) (h : Orthogonal 2 R) {c : K} (hc : c ≠ 0)
    (a : ℕ → K) :
    let M := basicMatrices2 elements nodes
    let M' := basicMatrices2 elements (similar 2 c R a nodes)
    M'.elementVolume = M.elementVolume.map (c ^ 2 * ·) ∧ ∀ p q,
      M'.volumeAtNodes p q = c ^ 2 * M.volumeAtNodes p q ∧ M'.U p q = c ^ 2 * M.U p q ∧
      (∀ k < 2, M'.V k p q = c * ∑ k' ∈ Finset.range 2, R k k' * M.V k' p q) ∧
      ∀ k < 2, ∀ l < 2, M'.W k l p q =
        ∑ k' ∈ Finset.range 2, ∑ l' ∈ Finset.range 2, R k k' * R l l' * M.W k' l' p q := by
  refine ⟨?_, fun p q => ?_⟩
  · simp only [basicMatrices2, elementVolumes, List.map_map]
    refine List.map_congr_left fun e _ => ?_
    simp only [Function.comp]
    rw [Plane.volume_eq _ _ (by decide), Plane.volume_eq _ _ (by decide)]
    exact area_similar c h a (vertices nodes e)
  · obtain ⟨h0, h1, h2, h3⟩ := edges_similar (Plane.allLocal hn) h hc a
      (Plane.allLocal (nondegenerate2_similar hn h hc a)) (area_similar c h a) p q
    refine ⟨h0, h1, fun k hk => (h2 k hk).trans ?_, fun k hk l hl => (h3 k hk l hl).trans ?_⟩
    · rw [show c ^ 2 * c⁻¹ = c by field_simp]; rfl
    · rw [show c ^ 2 * c⁻¹ ^ 2 = 1 by field_simp, one_mul]; rfl

/-- C90: the same for tetrahedra. -/
theorem C90_similar3 (hn : Nondegenerate3 elements nodes) (h : Orthogonal 3 R) {c : K} (hc : 0 < c)
    (a : ℕ → K) :
    let M := basicMatrices3 elements nodes
    let M' := basicMatrices3 elements (similar 3 c R a nodes)
    M'.elementVolume = M.elementVolume.map (c ^ 3 * ·) ∧ ∀ p q,
      M'.volumeAtNodes p q = c ^ 3 * M.volumeAtNodes p q ∧ M'.U p q = c ^ 3 * M.U p q ∧
      (∀ k < 3, M'.V k p q = c ^ 2 * ∑ k' ∈ Finset.range 3, R k k' * M.V k' p q) ∧
      ∀ k < 3, ∀ l < 3, M'.W k l p q =
        c * ∑ k' ∈ Finset.range 3, ∑ l' ∈ Finset.range 3, R k k' * R l l' * M.W k' l' p q := by
  have hm : ∀ X, Spec.volume (similar 3 c R a X) = c ^ 3 * Spec.volume X := fun X => by
    rw [volume_similar c h a X, abs_of_pos hc]
  refine ⟨?_, fun p q => ?_⟩
  · simp only [basicMatrices3, elementVolumes, List.map_map]
    refine List.map_congr_left fun e _ => ?_
    simp only [Function.comp]
    rw [Space.volume_eq _ _ (by decide), Space.volume_eq _ _ (by decide)]
    exact hm (vertices nodes e)
  · obtain ⟨h0, h1, h2, h3⟩ := edges_similar (Space.allLocal hn) h hc.ne' a
      (Space.allLocal (nondegenerate3_similar hn h hc.ne' a)) hm p q
    have hc' := hc.ne'
    refine ⟨h0, h1, fun k hk => (h2 k hk).trans ?_, fun k hk l hl => (h3 k hk l hl).trans ?_⟩
    · rw [show c ^ 3 * c⁻¹ = c ^ 2 by field_simp]; rfl
    · rw [show c ^ 3 * c⁻¹ ^ 2 = c by field_simp]; rfl

omit [LinearOrder K] [IsStrictOrderedRing K] in
theorem diagonal_rot {d : ℕ} (h : Orthogonal d R) (W : ℕ → ℕ → K) :
    ∑ k ∈ Finset.range d, ∑ k' ∈ Finset.range d, ∑ l' ∈ Finset.range d, R k k' * R k l' * W k' l' =
      ∑ k ∈ Finset.range d, W k k := by
  rw [← trace_rot h W]
  refine Finset.sum_congr rfl fun k _ => ?_
  rw [Finset.sum_comm]
  simp only [Finset.mul_sum]
  exact Finset.sum_congr rfl fun l _ => Finset.sum_congr rfl fun m _ => by ring

/-- C90: the Poisson matrix does not depend on position and orientation; the size of the body does not
matter in the plane and is a factor in space. -/
theorem C90_poisson (c : K) (hc : 0 < c) (a : ℕ → K) (propagation : K) (p q : ℕ) :
    (Nondegenerate2 elements nodes → Orthogonal 2 R →
      poissonMatrix 2 (basicMatrices2 elements (similar 2 c R a nodes)).W propagation p q =
        poissonMatrix 2 (basicMatrices2 elements nodes).W propagation p q) ∧
    (Nondegenerate3 elements nodes → Orthogonal 3 R →
      poissonMatrix 3 (basicMatrices3 elements (similar 3 c R a nodes)).W propagation p q =
        c * poissonMatrix 3 (basicMatrices3 elements nodes).W propagation p q) := by
  constructor
  · intro hn h
    have hw := ((C90_similar2 hn h hc.ne' a).2 p q).2.2.2
    unfold poissonMatrix
    rw [Finset.sum_congr rfl fun k hk => hw k (Finset.mem_range.1 hk) k (Finset.mem_range.1 hk),
      diagonal_rot h fun k l => (basicMatrices2 elements nodes).W k l p q]
  · intro hn h
    have hw := ((C90_similar3 hn h hc a).2 p q).2.2.2
    unfold poissonMatrix
    rw [Finset.sum_congr rfl fun k hk => hw k (Finset.mem_range.1 hk) k (Finset.mem_range.1 hk),
      ← Finset.mul_sum, diagonal_rot h fun k l => (basicMatrices3 elements nodes).W k l p q]
    ring

/-- C90: the energy of a plane displacement does not change when the body and the displacement are
turned, moved and enlarged. -/
theorem C90_elasticity2 (hv : ValidElements 2 N elements) (hn : Nondegenerate2 elements nodes)
    (h : Orthogonal 2 R) {c : K} (hc : c ≠ 0) (a : ℕ → K) (mu lam : K) (v u : ℕ → K) :
    form (2 * N) (2 * N)
        (Plane.constitutive N (basicMatrices2 elements (similar 2 c R a nodes)).W mu lam)
        (turned 2 N R v) (turned 2 N R u) =
      form (2 * N) (2 * N) (Plane.constitutive N (basicMatrices2 elements nodes).W mu lam) v u := by
  obtain ⟨V, hV⟩ := exists_vectorGradient (N := N) (Plane.allLocal hn) v
  obtain ⟨U, hU⟩ := exists_vectorGradient (N := N) (Plane.allLocal hn) u
  rw [C26_hooke hv hn mu lam v u V U hV hU, C26_hooke hv (nondegenerate2_similar hn h hc a) mu lam _ _ _ _
    (vectorGradient_similar hv h hc a hV) (vectorGradient_similar hv h hc a hU)]
  refine sumElements_congr fun t _ => ?_
  rw [hooke_rot two_ne_zero h]
  rw [show area (vertices (similar 2 c R a nodes) (elements.getD t [])) = _ from
    area_similar c h a (vertices nodes (elements.getD t []))]
  field_simp

/-- C90 in space, part: for equal coefficients the energy of a displacement does not change when the body
and the displacement are turned and moved, and grows with the size of the body. -/
theorem C90_elasticity3_partial (hv : ValidElements 3 N elements) (hn : Nondegenerate3 elements nodes)
    (h : Orthogonal 3 R) {c : K} (hc : 0 < c) (a : ℕ → K) (mu : K) (v u : ℕ → K) :
    form (3 * N) (3 * N)
        (Space.constitutive N (basicMatrices3 elements (similar 3 c R a nodes)).W mu mu)
        (turned 3 N R v) (turned 3 N R u) =
      c * form (3 * N) (3 * N) (Space.constitutive N (basicMatrices3 elements nodes).W mu mu) v u := by
  obtain ⟨V, hV⟩ := exists_vectorGradient (N := N) (Space.allLocal hn) v
  obtain ⟨U, hU⟩ := exists_vectorGradient (N := N) (Space.allLocal hn) u
  rw [(C27_equal_coefficients_partial hv hn mu).1 v u V U hV hU,
    (C27_equal_coefficients_partial hv (nondegenerate3_similar hn h hc.ne' a) mu).1 _ _ _ _
      (vectorGradient_similar hv h hc.ne' a hV) (vectorGradient_similar hv h hc.ne' a hU)]
  unfold elasticEnergy
  rw [← sumElements_mul]
  refine sumElements_congr fun t _ => ?_
  rw [hooke_rot two_ne_zero h]
  rw [show Spec.volume (vertices (similar 3 c R a nodes) (elements.getD t [])) = _ from
    volume_similar c h a (vertices nodes (elements.getD t [])), abs_of_pos hc]
  have := hc.ne'
  field_simp

/-- The rotation by a right angle about the second axis. -/
def quarterTurn (k l : ℕ) : K :=
  if k = 0 ∧ l = 2 then 1 else if k = 1 ∧ l = 1 then 1 else if k = 2 ∧ l = 0 then -1 else 0

omit [LinearOrder K] [IsStrictOrderedRing K] in
theorem quarterTurn_orthogonal : Orthogonal 3 (quarterTurn : ℕ → ℕ → K) := by
  intro i hi j hj
  interval_cases i <;> interval_cases j <;>
    simp [quarterTurn]

/-- C90 fails in space: on every non-empty mesh, whenever `μ ≠ λ`, there is a displacement whose energy
changes when the body and the displacement are turned by a right angle: it is `μ` times the volume of the
body before the turn and `λ` times the volume after it. -/
theorem C90_rotation3_wrong (hv : ValidElements 3 N elements) (hn : Nondegenerate3 elements nodes)
    (hne : elements ≠ []) (mu lam : K) (hml : mu ≠ lam) :
    ∃ u : ℕ → K,
      form (3 * N) (3 * N) (Space.constitutive N (basicMatrices3 elements nodes).W mu lam) u u =
        mu * sumElements elements (fun _ e => Spec.volume (vertices nodes e)) ∧
      form (3 * N) (3 * N) (Space.constitutive N
        (basicMatrices3 elements (similar 3 1 quarterTurn (fun _ => 0) nodes)).W mu lam)
        (turned 3 N quarterTurn u) (turned 3 N quarterTurn u) =
        lam * sumElements elements (fun _ e => Spec.volume (vertices nodes e)) ∧
      form (3 * N) (3 * N) (Space.constitutive N
        (basicMatrices3 elements (similar 3 1 quarterTurn (fun _ => 0) nodes)).W mu lam)
        (turned 3 N quarterTurn u) (turned 3 N quarterTurn u) ≠
      form (3 * N) (3 * N) (Space.constitutive N (basicMatrices3 elements nodes).W mu lam) u u := by
  let S : ℕ → ℕ → K := fun a k => if a = 0 ∧ k = 1 then 1 else 0
  let u : ℕ → K := fun r => 0 + ∑ k ∈ Finset.range 3, S (r / N) k * nodes (r % N) k
  have hc : ∀ a < 3, ∀ p < N, u (a * N + p) = (fun _ => (0 : K)) a +
      ∑ k ∈ Finset.range 3, S a k * nodes p k := by
    intro a ha p hp
    simp only [u, block_div _ hp, block_mod _ hp]
  have hu : VectorGradient 3 N elements nodes u fun _ => S := rigid_gradient hv hc
  have hO := quarterTurn_orthogonal (K := K)
  have e1 : form (3 * N) (3 * N) (Space.constitutive N (basicMatrices3 elements nodes).W mu lam) u u =
      mu * sumElements elements (fun _ e => Spec.volume (vertices nodes e)) := by
    rw [form_constitutive3 hv hn mu lam u u _ _ hu hu, ← sumElements_mul]
    refine sumElements_congr fun t _ => ?_
    simp only [hookeAsCoded, S]
    norm_num
    ring
  have hu' := vectorGradient_similar hv hO (one_ne_zero (α := K)) (fun _ => 0) hu
  have e2 : form (3 * N) (3 * N) (Space.constitutive N
        (basicMatrices3 elements (similar 3 1 quarterTurn (fun _ => 0) nodes)).W mu lam)
        (turned 3 N quarterTurn u) (turned 3 N quarterTurn u) =
        lam * sumElements elements (fun _ e => Spec.volume (vertices nodes e)) := by
    rw [form_constitutive3 hv (nondegenerate3_similar hn hO one_ne_zero _) mu lam _ _ _ _ hu' hu',
      ← sumElements_mul]
    refine sumElements_congr fun t _ => ?_
    rw [show Spec.volume (vertices (similar 3 1 quarterTurn (fun _ => 0) nodes) (elements.getD t [])) = _
      from volume_similar (1 : K) hO (fun _ => 0) (vertices nodes (elements.getD t []))]
    simp [hookeAsCoded, turnedGradient, S, quarterTurn, Finset.sum_range_succ]
    ring
  refine ⟨u, e1, e2, ?_⟩
  rw [e1, e2]
  have hpos : 0 < sumElements elements (fun _ e => Spec.volume (vertices nodes e)) := by
    refine Finset.sum_pos (fun t ht => (Space.allLocal hn _ (getD_mem (Finset.mem_range.1 ht))).pos) ?_
    exact ⟨0, Finset.mem_range.2 (List.length_pos_of_ne_nil hne)⟩
  intro hcon
  exact hml (mul_right_cancel₀ hpos.ne' hcon).symm

omit [LinearOrder K] [IsStrictOrderedRing K] in
theorem edges_order {elements' : List (List ℕ)} (h : elements.Perm elements') (size : ℕ)
    (feat : (ℕ → ℕ → K) → ℕ → ℕ → List K) :
    edgesFeatures size feat elements nodes = edgesFeatures size feat elements' nodes := by
  funext f p q
  rw [edgesFeatures_apply, edgesFeatures_apply]
  exact sumElements_perm h _

omit [IsStrictOrderedRing K] in
/-- C90: the matrices do not depend on the order of the elements; the sizes of the elements follow it. -/
theorem C90_order {elements' : List (List ℕ)} (h : elements.Perm elements') :
    (let M := basicMatrices2 elements nodes
      let M' := basicMatrices2 elements' nodes
      M'.volumeAtNodes = M.volumeAtNodes ∧ M'.U = M.U ∧ M'.V = M.V ∧ M'.W = M.W ∧
        M.elementVolume.Perm M'.elementVolume) ∧
    (let M := basicMatrices3 elements nodes
      let M' := basicMatrices3 elements' nodes
      M'.volumeAtNodes = M.volumeAtNodes ∧ M'.U = M.U ∧ M'.V = M.V ∧ M'.W = M.W ∧
        M.elementVolume.Perm M'.elementVolume) := by
  have h2 := edges_order (nodes := nodes) h 3 Plane.features
  have h3 := edges_order (nodes := nodes) h 4 Space.features
  simp only [basicMatrices2, basicMatrices3, h2, h3, true_and]
  exact ⟨h.map _, h.map _⟩

omit [LinearOrder K] [IsStrictOrderedRing K] in
theorem edges_relabel {d : ℕ} (hv : ValidElements d N elements) (π : ℕ → ℕ)
    (hπ : ∀ p < N, ∀ q < N, π p = π q → p = q) {nodes' : ℕ → ℕ → K}
    (hnodes : ∀ p < N, nodes' (π p) = nodes p) (feat : (ℕ → ℕ → K) → ℕ → ℕ → List K)
    (hfeat : ∀ X Y : ℕ → ℕ → K, (∀ i < d + 1, X i = Y i) → ∀ i < d + 1, ∀ j < d + 1,
      feat X i j = feat Y i j) (f p q : ℕ) (hp : p < N) (hq : q < N) :
    edgesFeatures (d + 1) feat (elements.map (List.map π)) nodes' f (π p) (π q) =
      edgesFeatures (d + 1) feat elements nodes f p q := by
  rw [edgesFeatures_apply, edgesFeatures_apply]
  unfold sumElements
  rw [List.length_map]
  refine Finset.sum_congr rfl fun t ht => ?_
  have ht' := Finset.mem_range.1 ht
  have he := getD_mem ht'
  have e1 : (elements.map (List.map π)).getD t [] = (elements.getD t []).map π := by
    rw [List.getD_eq_getElem _ _ (by simpa using ht'), List.getD_eq_getElem _ _ ht', List.getElem_map]
  rw [e1]
  generalize hge : elements.getD t [] = e at he
  have e2 : ∀ i < d + 1, (e.map π).getD i 0 = π (e.getD i 0) := by
    intro i hi
    have hlen := (hv e he).1
    rw [List.getD_eq_getElem _ _ (by simp; omega), List.getD_eq_getElem _ _ (by omega), List.getElem_map]
  have e3 : ∀ i < d + 1, vertices nodes' (e.map π) i = vertices nodes e i := by
    intro i hi
    unfold vertices
    rw [e2 i hi, hnodes _ (getD_lt hv he hi)]
  refine Finset.sum_congr rfl fun i hi => Finset.sum_congr rfl fun j hj => ?_
  have hi := Finset.mem_range.1 hi
  have hj := Finset.mem_range.1 hj
  rw [e2 i hi, e2 j hj, hfeat _ _ e3 i hi j hj]
  have a1 : π p = π (e.getD i 0) ↔ p = e.getD i 0 :=
    ⟨fun h => hπ p hp _ (getD_lt hv he hi) h, fun h => by rw [h]⟩
  have a2 : π q = π (e.getD j 0) ↔ q = e.getD j 0 :=
    ⟨fun h => hπ q hq _ (getD_lt hv he hj) h, fun h => by rw [h]⟩
  simp only [a1, a2]

theorem Plane.features_congr {X Y : ℕ → ℕ → K} (h : ∀ i < 2 + 1, X i = Y i) (i : ℕ) (hi : i < 2 + 1)
    (j : ℕ) (hj : j < 2 + 1) : Plane.features X i j = Plane.features Y i j := by
  have h0 := h 0 (by decide)
  have h1 := h 1 (by decide)
  have h2 := h 2 (by decide)
  have o : otherVertex 3 0 0 = 1 ∧ otherVertex 3 0 1 = 2 ∧ otherVertex 3 1 0 = 0 ∧
    otherVertex 3 1 1 = 2 ∧ otherVertex 3 2 0 = 0 ∧ otherVertex 3 2 1 = 1 := by decide
  have hg : ∀ i < 3, Plane.gradient X i = Plane.gradient Y i := by
    intro i hi
    interval_cases i <;> simp only [Plane.gradient, o, h0, h1, h2]
  have hw : ∀ i < 3, Plane.volume X i = Plane.volume Y i := by
    intro i hi
    interval_cases i <;> simp only [Plane.volume, o, h0, h1, h2]
  have hc : ∀ i < 3, Plane.coeffs X i = Plane.coeffs Y i := by
    intro i hi
    interval_cases i <;> simp only [Plane.coeffs, Nat.reduceAdd, Nat.reduceMod, h0, h1, h2]
  have hm : ∀ a b, Plane.intMatrix X a b = Plane.intMatrix Y a b := by
    intro a b
    unfold Plane.intMatrix Plane.intSqr Plane.intXY
    simp only [Finset.sum_range_succ, Finset.sum_range_zero, h0, h1, h2]
  have hj' : Plane.jacobian X = Plane.jacobian Y := by simp only [Plane.jacobian, h0, h1, h2]
  have hq : Plane.q X i j = Plane.q Y i j := by
    simp only [Plane.q, hw i hi, hc i hi, hc j hj, hm, hj']
  simp only [Plane.features, hg i hi, hg j hj, hw i hi, hq]

theorem Space.features_congr {X Y : ℕ → ℕ → K} (h : ∀ i < 3 + 1, X i = Y i) (i : ℕ) (hi : i < 3 + 1)
    (j : ℕ) (hj : j < 3 + 1) : Space.features X i j = Space.features Y i j := by
  have h0 := h 0 (by decide)
  have h1 := h 1 (by decide)
  have h2 := h 2 (by decide)
  have h3 := h 3 (by decide)
  have o := Space.other
  have hg : ∀ i < 4, Space.gradient X i = Space.gradient Y i := by
    intro i hi
    interval_cases i <;> simp only [Space.gradient, o, h0, h1, h2, h3]
  have hw : ∀ i < 4, Space.volume X i = Space.volume Y i := by
    intro i hi
    interval_cases i <;> simp only [Space.volume, o, h0, h1, h2, h3]
  simp only [Space.features, hg i hi, hg j hj, hw i hi]

/-- C90: when the nodes get other numbers, the entries of all matrices are the same under the new
numbers. -/
theorem C90_relabel (π : ℕ → ℕ) (hπ : ∀ p < N, ∀ q < N, π p = π q → p = q) {nodes' : ℕ → ℕ → K}
    (hnodes : ∀ p < N, nodes' (π p) = nodes p) (p q : ℕ) (hp : p < N) (hq : q < N) :
    (ValidElements 2 N elements →
      let M := basicMatrices2 elements nodes
      let M' := basicMatrices2 (elements.map (List.map π)) nodes'
      M'.volumeAtNodes (π p) (π q) = M.volumeAtNodes p q ∧ M'.U (π p) (π q) = M.U p q ∧
      (∀ k, M'.V k (π p) (π q) = M.V k p q) ∧ ∀ k l, M'.W k l (π p) (π q) = M.W k l p q) ∧
    (ValidElements 3 N elements →
      let M := basicMatrices3 elements nodes
      let M' := basicMatrices3 (elements.map (List.map π)) nodes'
      M'.volumeAtNodes (π p) (π q) = M.volumeAtNodes p q ∧ M'.U (π p) (π q) = M.U p q ∧
      (∀ k, M'.V k (π p) (π q) = M.V k p q) ∧ ∀ k l, M'.W k l (π p) (π q) = M.W k l p q) := by
  constructor
  · intro hv
    have h := fun f => edges_relabel hv π hπ hnodes Plane.features
      (fun _ _ h => Plane.features_congr h) f p q hp hq
    exact ⟨h 0, h 1, fun k => h _, fun k l => h _⟩
  · intro hv
    have h := fun f => edges_relabel hv π hπ hnodes Space.features
      (fun _ _ h => Space.features_congr h) f p q hp hq
    exact ⟨h 0, h 1, fun k => h _, fun k l => h _⟩

omit [LinearOrder K] [IsStrictOrderedRing K] in
theorem Shape.congr {d : ℕ} {X Y g : ℕ → ℕ → K} (h : Shape d X g) (hXY : ∀ i < d + 1, X i = Y i) :
    Shape d Y g := by
  refine ⟨?_, h.sum_zero, fun k hk l hl => ?_⟩
  · obtain ⟨c, hc⟩ := h.kron
    exact ⟨c, fun i hi j hj => by rw [← hXY j hj]; exact hc i hi j hj⟩
  · rw [← h.repro k hk l hl]
    exact Finset.sum_congr rfl fun i hi => by rw [hXY i (Finset.mem_range.1 hi)]

omit [LinearOrder K] [IsStrictOrderedRing K] in
theorem sum_reorder {n : ℕ} {σ : ℕ → ℕ} (h : Reorders n σ) (f : ℕ → K) :
    ∑ i ∈ Finset.range n, f (σ i) = ∑ i ∈ Finset.range n, f i := by
  have him : (Finset.range n).image σ = Finset.range n := by
    refine Finset.eq_of_subset_of_card_le ?_ ?_
    · intro x hx
      obtain ⟨i, hi, rfl⟩ := Finset.mem_image.1 hx
      exact Finset.mem_range.2 (h.1 i (Finset.mem_range.1 hi))
    · rw [Finset.card_image_of_injOn]
      intro i hi j hj hij
      exact h.2 i (by simpa using hi) j (by simpa using hj) hij
  conv_rhs => rw [← him]
  rw [Finset.sum_image]
  intro i hi j hj hij
  exact h.2 i (by simpa using hi) j (by simpa using hj) hij

/-- The feature matrices of a mesh whose elements list their vertices in another order. -/
theorem edges_rows {d : ℕ} {feat : (ℕ → ℕ → K) → ℕ → ℕ → List K} {size : (ℕ → ℕ → K) → K}
    {g : (ℕ → ℕ → K) → ℕ → ℕ → K} {elements' : List (List ℕ)}
    (hl : AllLocal d feat elements nodes size g) (hl' : AllLocal d feat elements' nodes size g)
    (hr : SameRows (d + 1) elements elements')
    (hsize : ∀ (X Y : ℕ → ℕ → K) (σ : ℕ → ℕ), Reorders (d + 1) σ → (∀ i < d + 1, Y i = X (σ i)) →
      size Y = size X) (f : ℕ)
    (hf : f = 0 ∨ f = 1 ∨ (∃ k < d, f = 2 + k) ∨ ∃ k < d, ∃ l < d, f = 2 + d * (k + 1) + l) (p q : ℕ) :
    edgesFeatures (d + 1) feat elements' nodes f p q = edgesFeatures (d + 1) feat elements nodes f p q := by
  rw [edgesFeatures_apply, edgesFeatures_apply]
  unfold sumElements
  rw [hr.1]
  refine Finset.sum_congr rfl fun t ht => ?_
  have ht := Finset.mem_range.1 ht
  obtain ⟨σ, hσ1, hσ2, hσ⟩ := hr.2 t ht
  have he := getD_mem ht
  have he' : elements'.getD t [] ∈ elements' := getD_mem (by rw [hr.1]; exact ht)
  generalize elements.getD t [] = e at *
  generalize elements'.getD t [] = e' at *
  have hR : Reorders (d + 1) σ := ⟨hσ1, hσ2⟩
  have hX : ∀ i < d + 1, vertices nodes e' i = vertices nodes e (σ i) := by
    intro i hi; unfold vertices; rw [hσ i hi]
  have hz : size (vertices nodes e') = size (vertices nodes e) := hsize _ _ σ hR hX
  have hg : ∀ i < d + 1, ∀ k < d, g (vertices nodes e') i k = g (vertices nodes e) (σ i) k :=
    fun i hi k hk => (hl e he).shape.reorder ((hl' e' he').shape.congr hX) hR hi hk
  have hij : ∀ i < d + 1, ∀ j < d + 1, (i = j) = (σ i = σ j) := fun i hi j hj =>
    propext ⟨fun h => by rw [h], hσ2 i hi j hj⟩
  have key : ∀ i < d + 1, ∀ j < d + 1, (feat (vertices nodes e') i j).getD f 0 =
      (feat (vertices nodes e) (σ i) (σ j)).getD f 0 := by
    intro i hi j hj
    have si := hσ1 i hi
    have sj := hσ1 j hj
    rcases hf with rfl | rfl | ⟨k, hk, rfl⟩ | ⟨k, hk, l, hl2, rfl⟩
    · rw [(hl e he).vol _ si _ sj, (hl' e' he').vol i hi j hj, hz]; simp only [hij i hi j hj]
    · rw [(hl e he).mass _ si _ sj, (hl' e' he').mass i hi j hj, hz]; simp only [hij i hi j hj]
    · rw [(hl e he).grad k hk _ si _ sj, (hl' e' he').grad k hk i hi j hj, hz, hg j hj k hk]
    · rw [(hl e he).stiff k hk l hl2 _ si _ sj, (hl' e' he').stiff k hk l hl2 i hi j hj, hz, hg i hi k hk,
        hg j hj l hl2]
  beta_reduce
  rw [← sum_reorder hR fun i => ∑ j ∈ Finset.range (d + 1),
    if p = e.getD i 0 ∧ q = e.getD j 0 then (feat (vertices nodes e) i j).getD f 0 else 0]
  refine Finset.sum_congr rfl fun i hi => ?_
  rw [← sum_reorder hR fun j =>
    if p = e.getD (σ i) 0 ∧ q = e.getD j 0 then (feat (vertices nodes e) (σ i) j).getD f 0 else 0]
  refine Finset.sum_congr rfl fun j hj => ?_
  rw [key i (Finset.mem_range.1 hi) j (Finset.mem_range.1 hj), hσ i (Finset.mem_range.1 hi),
    hσ j (Finset.mem_range.1 hj)]

theorem abs_det2_rows (X Y : ℕ → ℕ → K) (σ : ℕ → ℕ) (h : Reorders (2 + 1) σ)
    (hXY : ∀ i < 2 + 1, Y i = X (σ i)) : |det2 Y| = |det2 X| := by
  rw [← abs_det2_reorder X σ h]
  unfold det2
  rw [hXY 0 (by decide), hXY 1 (by decide), hXY 2 (by decide)]

theorem abs_det3_rows (X Y : ℕ → ℕ → K) (σ : ℕ → ℕ) (h : Reorders (3 + 1) σ)
    (hXY : ∀ i < 3 + 1, Y i = X (σ i)) : |det3 Y| = |det3 X| := by
  rw [← abs_det3_reorder X σ h]
  unfold det3
  rw [hXY 0 (by decide), hXY 1 (by decide), hXY 2 (by decide), hXY 3 (by decide)]

theorem mem_rows {n : ℕ} {elements' : List (List ℕ)} (hr : SameRows n elements elements') {e' : List ℕ}
    (he' : e' ∈ elements') : ∃ e ∈ elements, ∃ σ, Reorders n σ ∧
      ∀ i < n, vertices nodes e' i = vertices nodes e (σ i) := by
  obtain ⟨t, ht, rfl⟩ := List.getElem_of_mem he'
  have ht' : t < elements.length := by rw [← hr.1]; exact ht
  obtain ⟨σ, h1, h2, h3⟩ := hr.2 t ht'
  refine ⟨_, getD_mem ht', σ, ⟨h1, h2⟩, fun i hi => ?_⟩
  unfold vertices
  rw [← h3 i hi, List.getD_eq_getElem _ _ ht]

/-- C90: the matrices do not depend on the order of the vertices in the rows of the elements, so not on
the orientation of the elements. -/
theorem C90_rows (elements' : List (List ℕ)) (p q : ℕ) :
    (Nondegenerate2 elements nodes → SameRows 3 elements elements' →
      let M := basicMatrices2 elements nodes
      let M' := basicMatrices2 elements' nodes
      M'.volumeAtNodes p q = M.volumeAtNodes p q ∧ M'.U p q = M.U p q ∧
      (∀ k < 2, M'.V k p q = M.V k p q) ∧ ∀ k < 2, ∀ l < 2, M'.W k l p q = M.W k l p q) ∧
    (Nondegenerate3 elements nodes → SameRows 4 elements elements' →
      let M := basicMatrices3 elements nodes
      let M' := basicMatrices3 elements' nodes
      M'.volumeAtNodes p q = M.volumeAtNodes p q ∧ M'.U p q = M.U p q ∧
      (∀ k < 3, M'.V k p q = M.V k p q) ∧ ∀ k < 3, ∀ l < 3, M'.W k l p q = M.W k l p q) := by
  constructor
  · intro hn hr
    have hn' : Nondegenerate2 elements' nodes := by
      intro e' he'
      obtain ⟨e, he, σ, hσ, hX⟩ := mem_rows (nodes := nodes) hr he'
      rw [← abs_pos, abs_det2_rows _ _ σ hσ hX, abs_pos]
      exact hn e he
    have h := fun f hf => edges_rows (Plane.allLocal hn) (Plane.allLocal hn') hr
      (fun X Y σ hσ hXY => by unfold area; rw [abs_det2_rows X Y σ hσ hXY]) f hf p q
    exact ⟨h 0 (.inl rfl), h 1 (.inr (.inl rfl)), fun k hk => h _ (.inr (.inr (.inl ⟨k, hk, rfl⟩))),
      fun k hk l hl => h _ (.inr (.inr (.inr ⟨k, hk, l, hl, rfl⟩)))⟩
  · intro hn hr
    have hn' : Nondegenerate3 elements' nodes := by
      intro e' he'
      obtain ⟨e, he, σ, hσ, hX⟩ := mem_rows (nodes := nodes) hr he'
      rw [← abs_pos, abs_det3_rows _ _ σ hσ hX, abs_pos]
      exact hn e he
    have h := fun f hf => edges_rows (Space.allLocal hn) (Space.allLocal hn') hr
      (fun X Y σ hσ hXY => by unfold Spec.volume; rw [abs_det3_rows X Y σ hσ hXY]) f hf p q
    exact ⟨h 0 (.inl rfl), h 1 (.inr (.inl rfl)), fun k hk => h _ (.inr (.inr (.inl ⟨k, hk, rfl⟩))),
      fun k hk l hl => h _ (.inr (.inr (.inr ⟨k, hk, l, hl, rfl⟩)))⟩

end

/-- A rotation with a right triangle of sides 3, 4 and 5. -/
example : Orthogonal 2 (fun k l => ([[3 / 5, -4 / 5], [4 / 5, 3 / 5]].getD k []).getD l (0 : ℚ)) := by
  unfold Orthogonal
  simp only [Finset.sum_range_succ, Finset.sum_range_zero]
  decide +kernel
/-- A reflection in space. -/
example : Orthogonal 3 (fun k l => ([[1, 0, 0], [0, -1, 0], [0, 0, 1]].getD k []).getD l (0 : ℚ)) := by
  unfold Orthogonal
  simp only [Finset.sum_range_succ, Finset.sum_range_zero]
  decide +kernel
/-- A mesh with other numbers of the nodes. -/
example : ∀ p < 4, ∀ q < 4, (fun p => 3 - p) p = (fun p => 3 - p) q → p = q := by decide
/-- The vertices of the first triangle are listed from another one on, those of the second in the other
direction. -/
example : SameRows 3 [[0, 1, 2], [1, 3, 2]] [[1, 2, 0], [2, 3, 1]] := by
  refine ⟨rfl, fun t ht => ?_⟩
  have ht : t < 2 := ht
  interval_cases t
  · exact ⟨fun i => (i + 1) % 3, by decide, by decide, by decide⟩
  · exact ⟨fun i => 2 - i, by decide, by decide, by decide⟩
example : List.Perm [[0, 1, 2], [1, 3, 2]] [[1, 3, 2], [0, 1, 2]] := by decide

end Conmech
