import Verif.Spec.Sides
import Verif.Lemmas.CrossBoundary
import Verif.Lemmas.Layout
/-!
The boundary faces of the cross mesh as a list, and sums over lists with the same contents.
-/
namespace Conmech
open Spec

/-- The triangles at the sides, with the numbers used in `halfRow`. -/
def outerNumbers (sx sy : ℕ) : List ((ℕ × ℕ) × ℕ) :=
  ((List.range sx).map fun i => ((i, 0), 0)) ++ ((List.range sy).map fun j => ((sx - 1, j), 1)) ++
  ((List.range sx).map fun i => ((i, sy - 1), 2)) ++ ((List.range sy).map fun j => ((0, j), 3))

theorem mem_outerNumbers {sx sy : ℕ} (hx : 1 ≤ sx) (hy : 1 ≤ sy) {i j n : ℕ} :
    ((i, j), n) ∈ outerNumbers sx sy ↔ i < sx ∧ j < sy ∧ n < 4 ∧
      ((n = 0 ∧ j = 0) ∨ (n = 1 ∧ i + 1 = sx) ∨ (n = 2 ∧ j + 1 = sy) ∨ (n = 3 ∧ i = 0)) := by
  simp only [outerNumbers, List.mem_append, List.mem_map, List.mem_range, Prod.mk.injEq]
  constructor
  · rintro (((⟨a, h, ⟨rfl, rfl⟩, rfl⟩ | ⟨a, h, ⟨rfl, rfl⟩, rfl⟩) | ⟨a, h, ⟨rfl, rfl⟩, rfl⟩) |
      ⟨a, h, ⟨rfl, rfl⟩, rfl⟩) <;> omega
  · rintro ⟨hi, hj, hn, ⟨rfl, rfl⟩ | ⟨rfl, h⟩ | ⟨rfl, h⟩ | ⟨rfl, rfl⟩⟩
    · exact Or.inl (Or.inl (Or.inl ⟨i, hi, ⟨rfl, rfl⟩, rfl⟩))
    · exact Or.inl (Or.inl (Or.inr ⟨j, hj, ⟨by omega, rfl⟩, rfl⟩))
    · exact Or.inl (Or.inr ⟨i, hi, ⟨rfl, by omega⟩, rfl⟩)
    · exact Or.inr ⟨j, hj, ⟨rfl, rfl⟩, rfl⟩

theorem nodup_outerNumbers (sx sy : ℕ) : (outerNumbers sx sy).Nodup := by
  have inj : ∀ (n : ℕ) (f : ℕ → (ℕ × ℕ) × ℕ), (∀ a b, f a = f b → a = b) →
      ((List.range n).map f).Nodup := fun n f h => List.nodup_range.map h
  have dis : ∀ (l m : List ((ℕ × ℕ) × ℕ)) (k : ℕ), (∀ x ∈ l, x.2 < k) → (∀ x ∈ m, x.2 = k) →
      List.Disjoint l m := fun l m k hl hm x h1 h2 => by
    have := hl x h1; have := hm x h2; omega
  unfold outerNumbers
  refine List.Nodup.append (List.Nodup.append (List.Nodup.append ?_ ?_ (dis _ _ 1 ?_ ?_)) ?_
    (dis _ _ 2 ?_ ?_)) ?_ (dis _ _ 3 ?_ ?_)
  any_goals exact inj _ _ fun a b h => by simpa using h
  all_goals
    intro x hx
    simp only [List.mem_append, List.mem_map] at hx
  · obtain ⟨i, -, rfl⟩ := hx; simp
  · obtain ⟨i, -, rfl⟩ := hx; simp
  · rcases hx with ⟨i, -, rfl⟩ | ⟨i, -, rfl⟩ <;> simp
  · obtain ⟨i, -, rfl⟩ := hx; simp
  · rcases hx with (⟨i, -, rfl⟩ | ⟨i, -, rfl⟩) | ⟨i, -, rfl⟩ <;> simp
  · obtain ⟨i, -, rfl⟩ := hx; simp

/-- The side of the outer triangle that is on the boundary, as a set of node numbers. -/
def outerFace (sx sy : ℕ) (x : (ℕ × ℕ) × ℕ) : Multiset ℕ :=
  {halfIndex sx sy (halfRow x.1.1 x.1.2 x.2).1, halfIndex sx sy (halfRow x.1.1 x.1.2 x.2).2.1}

theorem boundaryFace_iff_outer {sx sy : ℕ} (hx : 1 ≤ sx) (hy : 1 ≤ sy) (f : Multiset ℕ) :
    BoundaryFace ((triangleNumbers sx sy).map (rowOf sx sy)) f ↔
      f ∈ (outerNumbers sx sy).map (outerFace sx sy) := by
  rw [List.mem_map]
  constructor
  · intro hf
    obtain ⟨i, j, n, hi, hj, hn, ho, rfl⟩ := outer_of_boundaryFace hx hy hf
    exact ⟨((i, j), n), (mem_outerNumbers hx hy).2 ⟨hi, hj, hn, ho⟩, rfl⟩
  · rintro ⟨⟨⟨i, j⟩, n⟩, hm, rfl⟩
    obtain ⟨hi, hj, hn, ho⟩ := (mem_outerNumbers hx hy).1 hm
    exact boundaryFace_outer hx hy hi hj hn ho

theorem nodup_outerFaces {sx sy : ℕ} (hx : 1 ≤ sx) (hy : 1 ≤ sy) :
    ((outerNumbers sx sy).map (outerFace sx sy)).Nodup := by
  refine List.Nodup.map_on ?_ (nodup_outerNumbers sx sy)
  intro x hxm y hym heq
  by_contra hne
  have hb := (boundaryFace_iff_outer hx hy _).2 (List.mem_map_of_mem hxm)
  obtain ⟨⟨i, j⟩, n⟩ := x
  obtain ⟨⟨i', j'⟩, n'⟩ := y
  obtain ⟨hi, hj, hn, ho⟩ := (mem_outerNumbers hx hy).1 hxm
  obtain ⟨hi', hj', hn', ho'⟩ := (mem_outerNumbers hx hy).1 hym
  refine not_boundaryFace_of_two hx hy ((mem_triangleNumbers ((i, j), n)).2 ⟨hi, hj, hn⟩)
    ((mem_triangleNumbers ((i', j'), n')).2 ⟨hi', hj', hn'⟩) hne ?_ hb
  rintro z (rfl | rfl)
  · exact rowCount_pos.2 (Or.inr (Or.inr rfl))
  · exact rowCount_pos.2 (Or.inr (Or.inr heq))

/-- The faces of the mesh after renumbering. -/
theorem Stage.faces_eq {α} {nodes nodes' : List α} {elements elements' : List (List ℕ)} {L : List ℕ}
    {π : ℕ → ℕ} (h : Stage nodes elements nodes' elements' L π) :
    faces elements' = (faces elements).map (Multiset.map π) := by
  rw [← faces_map π h.inj]
  apply faces_congr
  have : ∀ {a b : List (List ℕ)}, List.Forall₂ (fun e' e : List ℕ => e'.Perm (e.map π)) a b →
      List.Forall₂ (fun a b : List ℕ => a.Perm b) a (b.map fun row => row.map π) := by
    intro a b hab
    induction hab with
    | nil => exact List.Forall₂.nil
    | cons h _ ih => exact List.Forall₂.cons h ih
  exact this h.elems

/-- The boundary faces after renumbering. -/
theorem Stage.boundaryFace_iff {α} {nodes nodes' : List α} {elements elements' : List (List ℕ)}
    {L : List ℕ} {π : ℕ → ℕ} (h : Stage nodes elements nodes' elements' L π) (f : Multiset ℕ) :
    BoundaryFace elements' f ↔ ∃ g, BoundaryFace elements g ∧ f = g.map π := by
  unfold BoundaryFace
  rw [h.faces_eq]
  constructor
  · intro hf
    have hm : f ∈ (faces elements).map (Multiset.map π) := by
      rw [← Multiset.count_pos]; omega
    obtain ⟨g, -, rfl⟩ := Multiset.mem_map.1 hm
    refine ⟨g, ?_, rfl⟩
    rwa [Multiset.count_map_eq_count' _ _ (Multiset.map_injective h.inj)] at hf
  · rintro ⟨g, hg, rfl⟩
    rwa [Multiset.count_map_eq_count' _ _ (Multiset.map_injective h.inj)]

/-- Sums over two lists with the same contents. -/
theorem sum_of_perm_map {α β γ M : Type} [AddCommMonoid M] [DecidableEq β] {l : List α} {m : List β}
    {F : α → γ} {G : β → γ} {φ : α → M} {ψ : β → M} (h : (l.map F).Perm (m.map G))
    (hφ : ∀ a ∈ l, ∀ b ∈ m, F a = G b → φ a = ψ b) : (l.map φ).sum = (m.map ψ).sum := by
  induction l generalizing m with
  | nil =>
    have : m = [] := by simpa using h.length_eq.symm
    simp [this]
  | cons a l ih =>
    have hm : F a ∈ m.map G := h.mem_iff.1 (by simp)
    obtain ⟨b, hb, hab⟩ := List.mem_map.1 hm
    have hp := List.perm_cons_erase hb
    rw [(hp.map ψ).sum_eq, List.map_cons, List.sum_cons, List.map_cons, List.sum_cons,
      hφ a (by simp) b hb hab.symm]
    congr 1
    refine ih ?_ fun a' ha b' hb' => hφ a' (List.mem_cons_of_mem _ ha) b' (List.mem_of_mem_erase hb')
    have h2 := h.trans (hp.map G)
    rw [List.map_cons, List.map_cons, hab] at h2
    exact (List.perm_cons _).1 h2

/-- Partners in a list with the same contents. -/
theorem exists_of_perm_map {α β γ : Type} {l : List α} {m : List β} {F : α → γ} {G : β → γ}
    (h : (l.map F).Perm (m.map G)) {a : α} (ha : a ∈ l) : ∃ b ∈ m, F a = G b := by
  obtain ⟨b, hb, hab⟩ := List.mem_map.1 (h.mem_iff.1 (List.mem_map_of_mem ha))
  exact ⟨b, hb, hab.symm⟩

theorem sum_of_flatMap {α M : Type} [AddCommMonoid M] (l : List α) (f : α → List M) :
    (l.flatMap f).sum = (l.map fun a => (f a).sum).sum := by
  induction l with
  | nil => rfl
  | cons a l ih => rw [List.flatMap_cons, List.sum_append, List.map_cons, List.sum_cons, ih]

theorem sum_filter_map {α M : Type} [AddCommMonoid M] (l : List α) (P : α → Bool) (φ : α → M) :
    ((l.filter P).map φ).sum = (l.map fun a => if P a then φ a else 0).sum := by
  induction l with
  | nil => rfl
  | cons a l ih =>
    by_cases h : P a = true
    · simp [h, ih]
    · simp [h, ih]

end Conmech

namespace Conmech
open Spec

/-- A surface with two ends. -/
theorem ends_pair {α : Type} {nodes : List α} {f : List ℕ} (hl : f.length = 2) {p q : α}
    (h : endsOf nodes f = {p, q}) : ∃ a b, f = [a, b] ∧
      ((nodes[a]? = some p ∧ nodes[b]? = some q) ∨ (nodes[a]? = some q ∧ nodes[b]? = some p)) := by
  obtain ⟨a, b, rfl⟩ := List.length_eq_two.1 hl
  refine ⟨a, b, rfl, ?_⟩
  unfold endsOf at h
  have h' : List.filterMap (nodes[·]?) [a, b] = [p, q] ∨ List.filterMap (nodes[·]?) [a, b] = [q, p] := by
    have : (([p, q] : List α) : Multiset α) = {p, q} := rfl
    rw [← this, Multiset.coe_eq_coe] at h
    have hlen := h.length_eq
    obtain ⟨x, y, hxy⟩ := List.length_eq_two.1 hlen
    rw [hxy] at h ⊢
    have hx : x ∈ [p, q] := h.mem_iff.1 (by simp)
    simp only [List.mem_cons, List.not_mem_nil, or_false] at hx
    rcases hx with rfl | rfl
    · left
      rw [List.perm_singleton.1 ((List.perm_cons _).1 h)]
    · right
      rw [List.perm_singleton.1 ((List.perm_cons _).1 (h.trans (List.Perm.swap _ _ _)))]
  cases ha : nodes[a]? with
  | none =>
    cases hb : nodes[b]? with
    | none => simp [ha, hb] at h'
    | some y => simp [ha, hb] at h'
  | some x =>
    cases hb : nodes[b]? with
    | none => simp [ha, hb] at h'
    | some y => simpa [ha, hb] using h'

end Conmech
