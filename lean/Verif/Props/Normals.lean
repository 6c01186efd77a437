import Verif.Model.Normals
import Verif.Spec.Normals
import Verif.Lemmas.Normals
import Mathlib.Algebra.Order.Field.Basic
import Mathlib.Tactic.FieldSimp
import Mathlib.Tactic.LinearCombination
import Mathlib.Tactic.Linarith
import Mathlib.Tactic.Positivity
import Mathlib.Analysis.Real.Sqrt
import Mathlib.Data.Rat.Defs

/-!
Property C10: surface normals.
-/
namespace Conmech
open Spec

section
variable {K : Type} [Field K] [LinearOrder K] [IsStrictOrderedRing K] (sqrt : K → K)

theorem npSign_mul_self_of_ne {x : K} (hx : x ≠ 0) : npSign x * npSign x = 1 := by
  unfold npSign
  rcases lt_trichotomy x 0 with h | h | h
  · simp [h, not_lt.2 h.le]
  · exact absurd h hx
  · simp [h]

theorem npSign_mul_pos {x : K} (hx : x ≠ 0) : 0 < npSign x * x := by
  unfold npSign
  rcases lt_trichotomy x 0 with h | h | h
  · simp [h, not_lt.2 h.le]
  · exact absurd h hx
  · simp [h]

/-- C10. In 2D, the normal computed for an edge from the interior vertex of its (non-degenerate)
triangle is the outward unit normal. -/
theorem C10_normal_2d (hs : IsSqrt sqrt) (a b p : K × K) (hdet : area2 a b p ≠ 0) :
    OutwardUnitNormal2 (surfaceNormal2 sqrt a b p) a b p := by
  obtain ⟨a1, a2⟩ := a
  obtain ⟨b1, b2⟩ := b
  obtain ⟨p1, p2⟩ := p
  simp only [area2] at hdet
  simp only [OutwardUnitNormal2, surfaceNormal2, unorientedNormal2, normalize2, dot2, Prod.fst_sub,
    Prod.snd_sub]
  set q := (b1 - a1) * (b1 - a1) + (b2 - a2) * (b2 - a2) with hq
  have hq0 : 0 ≤ q := add_nonneg (mul_self_nonneg _) (mul_self_nonneg _)
  have hqpos : 0 < q := by
    rcases hq0.lt_or_eq with h | h
    · exact h
    · exfalso; apply hdet
      have h1 : (b1 - a1) * (b1 - a1) = 0 := by
        linarith [mul_self_nonneg (b1 - a1), mul_self_nonneg (b2 - a2)]
      have h2 : (b2 - a2) * (b2 - a2) = 0 := by
        linarith [mul_self_nonneg (b1 - a1), mul_self_nonneg (b2 - a2)]
      rw [mul_self_eq_zero] at h1 h2
      rw [h1, h2]; ring
  obtain ⟨hr0, hr⟩ := hs q hq0
  set r := sqrt q with hrdef
  have hrne : r ≠ 0 := by rintro h; rw [h] at hr; simp at hr; exact hqpos.ne hr
  set x := (p1 - a1) * ((b2 - a2) / r) + (p2 - a2) * -((b1 - a1) / r) with hx
  have hxne : x ≠ 0 := by
    intro h
    apply hdet
    have : x * r = -((b1 - a1) * (p2 - a2) - (b2 - a2) * (p1 - a1)) := by rw [hx]; field_simp; ring
    rw [h, zero_mul] at this
    linear_combination this
  have hsg := npSign_mul_self_of_ne hxne
  have hsp := npSign_mul_pos hxne
  set s := npSign x
  refine ⟨?_, ?_, ?_⟩
  · have : (b2 - a2) / r * (-1 * s) * ((b2 - a2) / r * (-1 * s)) +
        -((b1 - a1) / r) * (-1 * s) * (-((b1 - a1) / r) * (-1 * s)) = (s * s) * (q / (r * r)) := by
      rw [hq]; field_simp; ring
    rw [this, hsg, hr, div_self hqpos.ne']; ring
  · field_simp; ring
  · have : (b2 - a2) / r * (-1 * s) * (p1 - a1) + -((b1 - a1) / r) * (-1 * s) * (p2 - a2) =
        - (s * x) := by rw [hx]; ring
    rw [this]; linarith

/-- C10. In 3D, the normal computed for a face from the interior vertex of its (non-degenerate)
tetrahedron is the outward unit normal. -/
theorem C10_normal_3d (hs : IsSqrt sqrt) (a b c p : K × K × K) (hdet : volume6 a b c p ≠ 0) :
    OutwardUnitNormal3 (surfaceNormal3 sqrt a b c p) a b c p := by
  obtain ⟨a1, a2, a3⟩ := a
  obtain ⟨b1, b2, b3⟩ := b
  obtain ⟨c1, c2, c3⟩ := c
  obtain ⟨p1, p2, p3⟩ := p
  simp only [volume6] at hdet
  simp only [OutwardUnitNormal3, surfaceNormal3, unorientedNormal3, normalize3, dot3, cross3,
    Prod.fst_sub, Prod.snd_sub]
  set n1 := (b2 - a2) * (c3 - a3) - (b3 - a3) * (c2 - a2) with hn1
  set n2 := (b3 - a3) * (c1 - a1) - (b1 - a1) * (c3 - a3) with hn2
  set n3 := (b1 - a1) * (c2 - a2) - (b2 - a2) * (c1 - a1) with hn3
  set q := n1 * n1 + n2 * n2 + n3 * n3 with hq
  have hdet' : n1 * (p1 - a1) + n2 * (p2 - a2) + n3 * (p3 - a3) ≠ 0 := by
    intro h; apply hdet; rw [← h, hn1, hn2, hn3]; ring
  have hob : n1 * (b1 - a1) + n2 * (b2 - a2) + n3 * (b3 - a3) = 0 := by rw [hn1, hn2, hn3]; ring
  have hoc : n1 * (c1 - a1) + n2 * (c2 - a2) + n3 * (c3 - a3) = 0 := by rw [hn1, hn2, hn3]; ring
  clear_value n1 n2 n3
  clear hn1 hn2 hn3 hdet
  have hq0 : 0 ≤ q :=
    add_nonneg (add_nonneg (mul_self_nonneg _) (mul_self_nonneg _)) (mul_self_nonneg _)
  have hqpos : 0 < q := by
    rcases hq0.lt_or_eq with h | h
    · exact h
    · exfalso; apply hdet'
      have h1 : n1 * n1 = 0 := by
        linarith [mul_self_nonneg n1, mul_self_nonneg n2, mul_self_nonneg n3]
      have h2 : n2 * n2 = 0 := by
        linarith [mul_self_nonneg n1, mul_self_nonneg n2, mul_self_nonneg n3]
      have h3 : n3 * n3 = 0 := by
        linarith [mul_self_nonneg n1, mul_self_nonneg n2, mul_self_nonneg n3]
      rw [mul_self_eq_zero] at h1 h2 h3
      rw [h1, h2, h3]; ring
  obtain ⟨hr0, hr⟩ := hs q hq0
  set r := sqrt q with hrdef
  have hrne : r ≠ 0 := by rintro h; rw [h] at hr; simp at hr; exact hqpos.ne hr
  set x := (p1 - a1) * (n1 / r) + (p2 - a2) * (n2 / r) + (p3 - a3) * (n3 / r) with hx
  have hxne : x ≠ 0 := by
    intro h
    apply hdet'
    have : x * r = n1 * (p1 - a1) + n2 * (p2 - a2) + n3 * (p3 - a3) := by
      rw [hx]; field_simp
    rw [h, zero_mul] at this
    exact this.symm
  have hsg := npSign_mul_self_of_ne hxne
  have hsp := npSign_mul_pos hxne
  set s := npSign x
  refine ⟨?_, ?_, ?_, ?_⟩
  · have : n1 / r * (-1 * s) * (n1 / r * (-1 * s)) + n2 / r * (-1 * s) * (n2 / r * (-1 * s)) +
        n3 / r * (-1 * s) * (n3 / r * (-1 * s)) = (s * s) * (q / (r * r)) := by
      rw [hq]; field_simp
    rw [this, hsg, hr, div_self hqpos.ne']; ring
  · linear_combination (-s / r) * hob
  · linear_combination (-s / r) * hoc
  · have : n1 / r * (-1 * s) * (p1 - a1) + n2 / r * (-1 * s) * (p2 - a2) +
        n3 / r * (-1 * s) * (p3 - a3) = - (s * x) := by rw [hx]; ring
    rw [this]; linarith

end

section
variable {K : Type} [Field K] [LinearOrder K] [IsStrictOrderedRing K] [Inhabited K] (sqrt : K → K)
  (mean : List (K × K) → K × K) (nodes : List (K × K)) (elements : List (List ℕ))
  (isContact isDirichlet : K × K → Bool)

/-- C10 (partial: needs `hgroup`, see `C10_zero_normal_wrong`). In a constructed 2D mesh whose
surfaces, listed by type, are in the order in which they were found, every surface gets the outward
unit normal with respect to the triangle it belongs to. -/
theorem C10_mesh_2d_partial (hs : IsSqrt sqrt) (hv : Valid nodes.length elements)
    (hk : ∀ e ∈ elements, e.length = 3)
    (hnd : ∀ t ∈ geometry nodes elements, NonDegenerate2 (t : Multiset (Option (K × K)))) :
    let m := identifyBoundaries mean nodes elements isContact isDirichlet
    m.contactSurfaces ++ m.neumannSurfaces ++ m.dirichletSurfaces = m.boundarySurfaces →
    m.allSurfaces = m.boundarySurfaces ∧
    ∃ ns, m.surfaceNormals2 sqrt = some ns ∧ ns.length = m.boundarySurfaces.length ∧
      ∀ (i : ℕ) (n : K × K), ns[i]? = some n → ∃ (a b p : ℕ) (A B P : K × K),
         m.boundarySurfaces[i]? = some [a, b] ∧
        (∃ e ∈ m.elements, (e : Multiset ℕ) = {p, a, b}) ∧
        m.nodes[a]? = some A ∧ m.nodes[b]? = some B ∧ m.nodes[p]? = some P ∧
        OutwardUnitNormal2 n A B P := by
  intro m
  have hm : identifyBoundaries mean nodes elements isContact isDirichlet = m := rfl
  clear_value m
  intro hgroup
  obtain ⟨hl, hp⟩ := surface_pairs mean 3 nodes elements isContact isDirichlet hv hk m hm
  have key : ∀ i (h1 : i < m.boundarySurfaces.length) (h2 : i < m.internalIndices.length),
      ∃ a b A B P, m.boundarySurfaces[i] = [a, b] ∧ a < b ∧
      (∃ e ∈ m.elements, (e : Multiset ℕ) = {m.internalIndices[i], a, b}) ∧
      m.nodes[a]? = some A ∧ m.nodes[b]? = some B ∧ m.nodes[m.internalIndices[i]]? = some P ∧
      area2 A B P ≠ 0 := by
    intro i h1 h2
    obtain ⟨hsort, hlen, e, he, heq, hlt, t, ht, hperm⟩ := hp i h1 h2
    obtain ⟨a, b, hab⟩ := List.length_eq_two.1 hlen
    rw [hab] at heq hsort
    have hmem : ∀ v, v ∈ e ↔ v = m.internalIndices[i] ∨ v = a ∨ v = b := by
      intro v
      rw [← Multiset.mem_coe, heq]; simp
    have ha := hlt a ((hmem a).2 (by simp))
    have hb := hlt b ((hmem b).2 (by simp))
    have hpp := hlt _ ((hmem m.internalIndices[i]).2 (by simp))
    have hT : ((t : List (Option (K × K))) : Multiset (Option (K × K))) =
        {some m.nodes[m.internalIndices[i]], some m.nodes[a], some m.nodes[b]} := by
      rw [← hperm, ← Multiset.map_coe, heq]
      simp [ha, hb, hpp]
      rfl
    have hne := hnd t ht _ _ _ hT
    refine ⟨a, b, m.nodes[a], m.nodes[b], m.nodes[m.internalIndices[i]], hab, ?_,
      ⟨e, he, heq⟩, by simp [ha], by simp [hb], by simp [hpp], ?_⟩
    · have : a ≤ b := by simpa using hsort
      rcases this.lt_or_eq with h | h
      · exact h
      · subst h; exfalso; apply hne; simp only [area2]; ring
    · intro h0; apply hne; rw [← h0]; simp only [area2]; ring
  have hrow : ∀ r ∈ m.boundarySurfaces, r.length = 2 ∧ r.Pairwise (· < ·) := by
    intro r hr
    obtain ⟨i, hi, rfl⟩ := List.mem_iff_getElem.1 hr
    obtain ⟨a, b, A, B, P, h1, h2, _⟩ := key i hi (by omega)
    rw [h1]; simp [h2]
  have hall : m.allSurfaces = m.boundarySurfaces := by
    unfold MeshBoundaries.allSurfaces
    rw [hgroup]
    exact uniqueColumns_eq 2 _ (fun r hr => (hrow r hr).1) (fun r hr => (hrow r hr).2)
  refine ⟨hall, ?_⟩
  unfold MeshBoundaries.surfaceNormals2 boundarySurfacesNormals2
  rw [hall, if_pos hl]
  refine ⟨_, rfl, by simp [hl], ?_⟩
  intro i n hn
  rw [List.getElem?_zipWith] at hn
  by_cases hi : i < m.boundarySurfaces.length
  · have hi2 : i < m.internalIndices.length := by omega
    rw [List.getElem?_eq_getElem hi, List.getElem?_eq_getElem hi2] at hn
    obtain ⟨a, b, A, B, P, h1, h2, h3, h4, h5, h6, h7⟩ := key i hi hi2
    refine ⟨a, b, m.internalIndices[i], A, B, P, by rw [List.getElem?_eq_getElem hi, h1], h3, h4,
      h5, h6, ?_⟩
    simp only [Option.some.injEq] at hn
    rw [← hn, h1]
    have g : ∀ v X, m.nodes[v]? = some X → m.nodes.getD v 0 = X := by
      intro v X h; rw [List.getD_eq_getElem?_getD, h]; rfl
    simp only [List.getD_cons_zero, List.getD_cons_succ, g _ _ h4, g _ _ h5, g _ _ h6]
    exact C10_normal_2d sqrt hs A B P h7
  · rw [List.getElem?_eq_none (by omega)] at hn; simp at hn

omit [IsStrictOrderedRing K] in
/-- C10. If some boundary surface satisfies both predicates at its barycentre, computing the normals
fails: there are more listed surfaces than interior vertices. -/
theorem C10_double_surface_error (f : List ℕ) (hv : Valid nodes.length elements) (k : ℕ)
    (hk : ∀ e ∈ elements, e.length = k) :
    let m := identifyBoundaries mean nodes elements isContact isDirichlet
    f ∈ m.contactSurfaces → f ∈ m.dirichletSurfaces → m.surfaceNormals2 sqrt = none := by
  intro m
  have hm : identifyBoundaries mean nodes elements isContact isDirichlet = m := rfl
  clear_value m
  intro hc hd
  obtain ⟨hl, -⟩ := surface_pairs mean k nodes elements isContact isDirichlet hv hk m hm
  unfold MeshBoundaries.surfaceNormals2 boundarySurfacesNormals2
  rw [if_neg]
  have hlen : m.allSurfaces.length = (m.contactSurfaces ++ m.neumannSurfaces ++
      m.dirichletSurfaces).length := by
    simp [MeshBoundaries.allSurfaces, uniqueColumns]
  rw [hlen, ← hl]
  have h1 : m.contactSurfaces = m.boundarySurfaces.filter fun s =>
      isContact (mean (s.filterMap (m.nodes[·]?))) := by
    simp only [← hm, identifyBoundaries, applyPredicateToSurfaces]
  have h2 : m.dirichletSurfaces = m.boundarySurfaces.filter fun s =>
      isDirichlet (mean (s.filterMap (m.nodes[·]?))) := by
    simp only [← hm, identifyBoundaries, applyPredicateToSurfaces]
  have h3 : m.neumannSurfaces = m.boundarySurfaces.filter fun s =>
      !isContact (mean (s.filterMap (m.nodes[·]?))) &&
        !isDirichlet (mean (s.filterMap (m.nodes[·]?))) := by
    simp only [← hm, identifyBoundaries, applyPredicateToSurfaces]
  rw [h1] at hc ⊢
  rw [h2] at hd ⊢
  rw [h3]
  generalize m.boundarySurfaces = L at *
  generalize (fun s : List ℕ => mean (s.filterMap (m.nodes[·]?))) = g at *
  have hle : ∀ L : List (List ℕ), L.length ≤
      (L.filter fun s => isContact (mean (s.filterMap (m.nodes[·]?)))).length +
      (L.filter fun s => !isContact (mean (s.filterMap (m.nodes[·]?))) &&
        !isDirichlet (mean (s.filterMap (m.nodes[·]?)))).length +
      (L.filter fun s => isDirichlet (mean (s.filterMap (m.nodes[·]?)))).length := by
    intro L
    induction L with
    | nil => simp
    | cons x L ih =>
      simp only [List.filter_cons, List.length_cons]
      cases isContact (mean (x.filterMap (m.nodes[·]?))) <;>
        cases isDirichlet (mean (x.filterMap (m.nodes[·]?))) <;> simp <;> omega
  have hc1 := (List.mem_filter.1 hc).2
  have hd1 := (List.mem_filter.1 hd).2
  have hfL := (List.mem_filter.1 hc).1
  obtain ⟨s, t, rfl⟩ := List.append_of_mem hfL
  have hs := hle s
  have ht := hle t
  simp only [List.filter_append, List.filter_cons, List.length_append, hc1, hd1, List.length_cons,
    if_true] at *
  simp at *
  omega

end

section
variable {K : Type} [Field K] [LinearOrder K] [IsStrictOrderedRing K] [Inhabited K] (sqrt : K → K)
  (mean : List (K × K × K) → K × K × K) (nodes : List (K × K × K)) (elements : List (List ℕ))
  (isContact isDirichlet : K × K × K → Bool)

/-- C10 (partial: needs the order hypothesis). The 3D version of `C10_mesh_2d_partial`. -/
theorem C10_mesh_3d_partial (hs : IsSqrt sqrt) (hv : Valid nodes.length elements)
    (hk : ∀ e ∈ elements, e.length = 4)
    (hnd : ∀ t ∈ geometry nodes elements, NonDegenerate3 (t : Multiset (Option (K × K × K)))) :
    let m := identifyBoundaries mean nodes elements isContact isDirichlet
    m.contactSurfaces ++ m.neumannSurfaces ++ m.dirichletSurfaces = m.boundarySurfaces →
    m.allSurfaces = m.boundarySurfaces ∧
    ∃ ns, m.surfaceNormals3 sqrt = some ns ∧ ns.length = m.boundarySurfaces.length ∧
      ∀ (i : ℕ) (n : K × K × K), ns[i]? = some n → ∃ (a b c p : ℕ) (A B C P : K × K × K),
        m.boundarySurfaces[i]? = some [a, b, c] ∧
        (∃ e ∈ m.elements, (e : Multiset ℕ) = {p, a, b, c}) ∧
        m.nodes[a]? = some A ∧ m.nodes[b]? = some B ∧ m.nodes[c]? = some C ∧
        m.nodes[p]? = some P ∧ OutwardUnitNormal3 n A B C P := by
  intro m
  have hm : identifyBoundaries mean nodes elements isContact isDirichlet = m := rfl
  clear_value m
  intro hgroup
  obtain ⟨hl, hp⟩ := surface_pairs mean 4 nodes elements isContact isDirichlet hv hk m hm
  have key : ∀ i (h1 : i < m.boundarySurfaces.length) (h2 : i < m.internalIndices.length),
      ∃ a b c A B C P, m.boundarySurfaces[i] = [a, b, c] ∧ a < b ∧ b < c ∧
      (∃ e ∈ m.elements, (e : Multiset ℕ) = {m.internalIndices[i], a, b, c}) ∧
      m.nodes[a]? = some A ∧ m.nodes[b]? = some B ∧ m.nodes[c]? = some C ∧
      m.nodes[m.internalIndices[i]]? = some P ∧ volume6 A B C P ≠ 0 := by
    intro i h1 h2
    obtain ⟨hsort, hlen, e, he, heq, hlt, t, ht, hperm⟩ := hp i h1 h2
    obtain ⟨a, b, c, hab⟩ := List.length_eq_three.1 hlen
    rw [hab] at heq hsort
    have hmem : ∀ v, v ∈ e ↔ v = m.internalIndices[i] ∨ v = a ∨ v = b ∨ v = c := by
      intro v
      rw [← Multiset.mem_coe, heq]; simp
    have ha := hlt a ((hmem a).2 (by simp))
    have hb := hlt b ((hmem b).2 (by simp))
    have hc := hlt c ((hmem c).2 (by simp))
    have hpp := hlt _ ((hmem m.internalIndices[i]).2 (by simp))
    have hT : ((t : List (Option (K × K × K))) : Multiset (Option (K × K × K))) =
        {some m.nodes[m.internalIndices[i]], some m.nodes[a], some m.nodes[b],
          some m.nodes[c]} := by
      rw [← hperm, ← Multiset.map_coe, heq]
      simp [ha, hb, hc, hpp]
      rfl
    have hne := hnd t ht _ _ _ _ hT
    have hsort' : (a ≤ b ∧ a ≤ c) ∧ b ≤ c := by simpa using hsort
    refine ⟨a, b, c, m.nodes[a], m.nodes[b], m.nodes[c], m.nodes[m.internalIndices[i]], hab, ?_, ?_,
      ⟨e, he, heq⟩, by simp [ha], by simp [hb], by simp [hc], by simp [hpp], ?_⟩
    · rcases hsort'.1.1.lt_or_eq with h | h
      · exact h
      · subst h; exfalso; apply hne; simp only [volume6]; ring
    · rcases hsort'.2.lt_or_eq with h | h
      · exact h
      · subst h; exfalso; apply hne; simp only [volume6]; ring
    · intro h0; apply hne
      have : ∀ A B C P : K × K × K, volume6 P A B C = - volume6 A B C P := by
        intro A B C P; simp only [volume6]; ring
      rw [this, h0, neg_zero]
  have hrow : ∀ r ∈ m.boundarySurfaces, r.length = 3 ∧ r.Pairwise (· < ·) := by
    intro r hr
    obtain ⟨i, hi, rfl⟩ := List.mem_iff_getElem.1 hr
    obtain ⟨a, b, c, A, B, C, P, h1, h2, h3, _⟩ := key i hi (by omega)
    rw [h1]; simp [h2, h3]; omega
  have hall : m.allSurfaces = m.boundarySurfaces := by
    unfold MeshBoundaries.allSurfaces
    rw [hgroup]
    exact uniqueColumns_eq 3 _ (fun r hr => (hrow r hr).1) (fun r hr => (hrow r hr).2)
  refine ⟨hall, ?_⟩
  unfold MeshBoundaries.surfaceNormals3 boundarySurfacesNormals3
  rw [hall, if_pos hl]
  refine ⟨_, rfl, by simp [hl], ?_⟩
  intro i n hn
  rw [List.getElem?_zipWith] at hn
  by_cases hi : i < m.boundarySurfaces.length
  · have hi2 : i < m.internalIndices.length := by omega
    rw [List.getElem?_eq_getElem hi, List.getElem?_eq_getElem hi2] at hn
    obtain ⟨a, b, c, A, B, C, P, h1, h2, h3, h4, h5, h6, h7, h8, h9⟩ := key i hi hi2
    refine ⟨a, b, c, m.internalIndices[i], A, B, C, P, by rw [List.getElem?_eq_getElem hi, h1], h4,
      h5, h6, h7, h8, ?_⟩
    simp only [Option.some.injEq] at hn
    rw [← hn, h1]
    have g : ∀ v X, m.nodes[v]? = some X → m.nodes.getD v 0 = X := by
      intro v X h; rw [List.getD_eq_getElem?_getD, h]; rfl
    simp only [List.getD_cons_zero, List.getD_cons_succ, g _ _ h5, g _ _ h6, g _ _ h7, g _ _ h8]
    exact C10_normal_3d sqrt hs A B C P h9
  · rw [List.getElem?_eq_none (by omega)] at hn; simp at hn

end

/-- The unit square cut by a diagonal. -/
def unitSquareNodes : List (ℚ × ℚ) := [(0, 0), (1, 0), (1, 1), (0, 1)]
def unitSquareElements : List (List ℕ) := [[0, 1, 2], [0, 2, 3]]
/-- `np.mean(nodes[surface], axis=0)`. -/
def mean2 (l : List (ℚ × ℚ)) : ℚ × ℚ :=
  ((l.map (·.1)).sum / l.length, (l.map (·.2)).sum / l.length)

/-- C10, negation of the full statement: on the unit square cut by a diagonal, with contact on the
lower and the right edge and nothing else, the right edge -- a contact edge -- gets the zero vector
as its normal, because it is paired with the interior vertex of another edge. -/
theorem C10_zero_normal_wrong (sqrt : ℚ → ℚ) (h1 : sqrt 1 = 1) :
    let m := identifyBoundaries mean2 unitSquareNodes unitSquareElements
      (fun p => p.1 == 1 || p.2 == 0) (fun _ => false)
    ∃ a b : ℕ, m.nodes[a]? = some (1, 0) ∧ m.nodes[b]? = some (1, 1) ∧
      m.contactSurfaces[1]? = some [a, b] ∧
      (m.contactNormals2 sqrt).map (·[1]?) = some (some (0, 0)) := by
  intro m
  have hn : m.nodes = [(0, 0), (1, 0), (1, 1), (0, 1)] := by decide +kernel
  have hc : m.contactSurfaces = [[0, 1], [1, 2]] := by decide +kernel
  have ha : m.allSurfaces = [[0, 1], [1, 2], [0, 3], [2, 3]] := by decide +kernel
  have hi : m.internalIndices = [2, 2, 0, 0] := by decide +kernel
  clear_value m
  refine ⟨1, 2, by simp [hn], by simp [hn], by simp [hc], ?_⟩
  unfold MeshBoundaries.contactNormals2 MeshBoundaries.surfaceNormals2 boundarySurfacesNormals2
  rw [ha, hi, hn, hc]
  simp [surfaceNormal2, unorientedNormal2, normalize2, dot2, h1, npSign]

-- the order hypothesis of `C10_mesh_2d_partial` holds for contact on the right edge only
example :
    let m := identifyBoundaries mean2 unitSquareNodes unitSquareElements
      (fun p => p.1 == 1) (fun _ => false)
    m.contactSurfaces ++ m.neumannSurfaces ++ m.dirichletSurfaces = m.boundarySurfaces ∧
      m.contactSurfaces = [[0, 1]] ∧ m.neumannSurfaces = [[0, 2], [1, 3], [2, 3]] := by
  decide +kernel

example : ∀ t ∈ geometry unitSquareNodes unitSquareElements,
    NonDegenerate2 (t : Multiset (Option (ℚ × ℚ))) := by
  intro t ht a b c h
  simp only [geometry, unitSquareNodes, unitSquareElements, List.map_cons, List.map_nil,
    List.mem_cons, List.not_mem_nil, or_false] at ht
  have hm : ∀ x, x ∈ (t : Multiset (Option (ℚ × ℚ))) ↔ x = some a ∨ x = some b ∨ x = some c := by
    intro x; rw [h]; simp
  have ha := (hm (some a)).2 (by simp)
  have hb := (hm (some b)).2 (by simp)
  have hc := (hm (some c)).2 (by simp)
  clear hm
  rcases ht with rfl | rfl <;> simp at ha hb hc <;>
  rcases ha with rfl | rfl | rfl <;> rcases hb with rfl | rfl | rfl <;>
    rcases hc with rfl | rfl | rfl <;>
    first
    | (exfalso; revert h; decide +kernel)
    | norm_num [area2]

-- a surface that is contact and Dirichlet
example :
    let m := identifyBoundaries mean2 unitSquareNodes unitSquareElements
      (fun p => p.1 == 1) (fun p => p.1 == 1)
    [2, 3] ∈ m.contactSurfaces ∧ [2, 3] ∈ m.dirichletSurfaces := by
  decide +kernel

-- the hypotheses are met by the real square root and a proper triangle / tetrahedron
example : IsSqrt (K := ℝ) Real.sqrt ∧ area2 ((0 : ℝ), (0 : ℝ)) (1, 0) (0, 1) ≠ 0 ∧
    volume6 ((0 : ℝ), (0 : ℝ), (0 : ℝ)) (1, 0, 0) (0, 1, 0) (0, 0, 1) ≠ 0 := by
  refine ⟨fun x hx => ⟨Real.sqrt_nonneg x, Real.mul_self_sqrt hx⟩, ?_, ?_⟩ <;>
    norm_num [area2, volume6]

end Conmech
