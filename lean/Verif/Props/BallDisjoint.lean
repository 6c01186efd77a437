import Verif.Props.BallMesh

/-!
The tetrahedra of the hard-coded ball mesh do not overlap (C69).
-/

namespace Conmech

open Spec

section Separation

/-- A linear function of a point. -/
def linear3 {R : Type} [Add R] [Mul R] (w p : R × R × R) : R := w.1 * p.1 + w.2.1 * p.2.1 + w.2.2 * p.2.2

/-- The least and the largest value of a linear function on a tetrahedron. -/
def span3 (w : ℤ × ℤ × ℤ) (t : Tet ℤ) : ℤ × ℤ :=
  (min (min (linear3 w t.1) (linear3 w t.2.1)) (min (linear3 w t.2.2.1) (linear3 w t.2.2.2)),
    max (max (linear3 w t.1) (linear3 w t.2.1)) (max (linear3 w t.2.2.1) (linear3 w t.2.2.2)))

/-- The first interval is below the second one, and they are not the same point. -/
def below (a b : ℤ × ℤ) : Bool := decide (a.2 ≤ b.1) && decide (a.1 < b.2)

/-- The normal of the plane through three points. -/
def normal3 (p q r : ℤ × ℤ × ℤ) : ℤ × ℤ × ℤ :=
  ((q.2.1 - p.2.1) * (r.2.2 - p.2.2) - (q.2.2 - p.2.2) * (r.2.1 - p.2.1),
    (q.2.2 - p.2.2) * (r.1 - p.1) - (q.1 - p.1) * (r.2.2 - p.2.2),
    (q.1 - p.1) * (r.2.1 - p.2.1) - (q.2.1 - p.2.1) * (r.1 - p.1))

/-- The normals of the faces. -/
def normals (t : Tet ℤ) : List (ℤ × ℤ × ℤ) :=
  [normal3 t.1 t.2.1 t.2.2.1, normal3 t.1 t.2.1 t.2.2.2, normal3 t.1 t.2.2.1 t.2.2.2,
    normal3 t.2.1 t.2.2.1 t.2.2.2]

/-- The linear function separates the tetrahedra. -/
def separates (s t : Tet ℤ) (w : ℤ × ℤ × ℤ) : Bool :=
  below (span3 w s) (span3 w t) || below (span3 w t) (span3 w s)

/-- The directions that are tried first. -/
def directions : List (ℤ × ℤ × ℤ) :=
  [(1, 0, 0), (0, 1, 0), (0, 0, 1), (1, 1, 0), (1, -1, 0), (1, 0, 1), (1, 0, -1), (0, 1, 1), (0, 1, -1),
    (1, 1, 1), (1, 1, -1), (1, -1, 1), (-1, 1, 1)]

/-- One of the spans in the same direction is below the other. -/
def apart : List (ℤ × ℤ) → List (ℤ × ℤ) → Bool
  | a :: l, b :: m => below a b || below b a || apart l m
  | _, _ => false

/-- All tetrahedra of a table with their spans are pairwise separated. -/
def allApart : List (Tet ℤ × List (ℤ × ℤ)) → Bool
  | [] => true
  | a :: l => (l.all fun b =>
      apart a.2 b.2 || (normals a.1).any (separates a.1 b.1) || (normals b.1).any (separates a.1 b.1)) &&
    allApart l

theorem separates_of_apart {s t : Tet ℤ} : ∀ {l : List (ℤ × ℤ × ℤ)},
    apart (l.map fun w => span3 w s) (l.map fun w => span3 w t) = true → ∃ w, separates s t w = true
  | [], h => by simp [apart] at h
  | w :: l, h => by
    simp only [List.map_cons, apart, Bool.or_eq_true] at h
    rcases h with h | h
    · exact ⟨w, by simpa only [separates, Bool.or_eq_true] using h⟩
    · exact separates_of_apart h

theorem separates_of_allApart {tets : List (Tet ℤ)} {l : List (ℤ × ℤ × ℤ)}
    (h : allApart (tets.map fun t => (t, l.map fun w => span3 w t)) = true) :
    tets.Pairwise fun s t => ∃ w, separates s t w = true := by
  induction tets with
  | nil => exact List.Pairwise.nil
  | cons s tets ih =>
    simp only [List.map_cons, allApart, Bool.and_eq_true, List.all_eq_true, List.mem_map,
      forall_exists_index, and_imp, forall_apply_eq_imp_iff₂, Bool.or_eq_true, List.any_eq_true] at h
    refine List.pairwise_cons.2 ⟨fun t ht => ?_, ih h.2⟩
    rcases h.1 t ht with (h | ⟨w, -, h⟩) | ⟨w, -, h⟩
    · exact separates_of_apart h
    · exact ⟨w, h⟩
    · exact ⟨w, h⟩

variable {K : Type} [Field K] [LinearOrder K] [IsStrictOrderedRing K]

/-- The corners, as a list. -/
def Spec.Tet.points {R : Type} (t : Tet R) : List (R × R × R) := [t.1, t.2.1, t.2.2.1, t.2.2.2]

/-- Tetrahedra separated by a linear function have disjoint interiors. -/
theorem disjoint_of_linear {s t : Tet K} (w : K × K × K)
    (h : ∀ p ∈ s.points, ∀ q ∈ t.points, linear3 w p ≤ linear3 w q)
    (h' : ∃ p ∈ s.points, ∃ q ∈ t.points, linear3 w p < linear3 w q) (x : K × K × K) (hs : s.Inside x) :
    ¬ t.Inside x := by
  intro ht
  obtain ⟨p0, p1, p2, p3⟩ := s
  obtain ⟨q0, q1, q2, q3⟩ := t
  simp only [Tet.Inside, Tet.coords, List.mem_cons, List.not_mem_nil, or_false, forall_eq_or_imp,
    forall_eq] at hs ht
  simp only [Tet.points, List.mem_cons, List.not_mem_nil, or_false, forall_eq_or_imp, forall_eq,
    exists_eq_or_imp, exists_eq_left] at h h'
  obtain ⟨a0, a1, a2, a3⟩ := hs
  obtain ⟨b0, b1, b2, b3⟩ := ht
  have linear : ∀ (r0 r1 r2 r3 : K × K × K),
      orient3 x r1 r2 r3 * linear3 w r0 + orient3 r0 x r2 r3 * linear3 w r1 + orient3 r0 r1 x r3 * linear3 w r2 +
        orient3 r0 r1 r2 x * linear3 w r3 =
      (orient3 x r1 r2 r3 + orient3 r0 x r2 r3 + orient3 r0 r1 x r3 + orient3 r0 r1 r2 x) * linear3 w x := by
    intro r0 r1 r2 r3
    simp only [orient3, linear3]
    ring
  have l1 := linear p0 p1 p2 p3
  have l2 := linear q0 q1 q2 q3
  revert l1 l2 a0 a1 a2 a3 b0 b1 b2 b3
  generalize orient3 x p1 p2 p3 = a0
  generalize orient3 p0 x p2 p3 = a1
  generalize orient3 p0 p1 x p3 = a2
  generalize orient3 p0 p1 p2 x = a3
  generalize orient3 x q1 q2 q3 = b0
  generalize orient3 q0 x q2 q3 = b1
  generalize orient3 q0 q1 x q3 = b2
  generalize orient3 q0 q1 q2 x = b3
  revert h h'
  generalize linear3 w p0 = u0
  generalize linear3 w p1 = u1
  generalize linear3 w p2 = u2
  generalize linear3 w p3 = u3
  generalize linear3 w q0 = v0
  generalize linear3 w q1 = v1
  generalize linear3 w q2 = v2
  generalize linear3 w q3 = v3
  generalize linear3 w x = y
  intro h h' a0p a1p a2p a3p b0p b1p b2p b3p l1 l2
  obtain ⟨⟨g00, g01, g02, g03⟩, ⟨g10, g11, g12, g13⟩, ⟨g20, g21, g22, g23⟩, g30, g31, g32, g33⟩ := h
  have hzero : a0 * b0 * (v0 - u0) + a0 * b1 * (v1 - u0) + a0 * b2 * (v2 - u0) + a0 * b3 * (v3 - u0) +
      (a1 * b0 * (v0 - u1) + a1 * b1 * (v1 - u1) + a1 * b2 * (v2 - u1) + a1 * b3 * (v3 - u1)) +
      (a2 * b0 * (v0 - u2) + a2 * b1 * (v1 - u2) + a2 * b2 * (v2 - u2) + a2 * b3 * (v3 - u2)) +
      (a3 * b0 * (v0 - u3) + a3 * b1 * (v1 - u3) + a3 * b2 * (v2 - u3) + a3 * b3 * (v3 - u3)) = 0 := by
    linear_combination (a0 + a1 + a2 + a3) * l2 - (b0 + b1 + b2 + b3) * l1
  have n : ∀ {a b u v : K}, 0 < a → 0 < b → u ≤ v → 0 ≤ a * b * (v - u) := fun ha hb huv =>
    mul_nonneg (mul_pos ha hb).le (sub_nonneg.2 huv)
  have m : ∀ {a b u v : K}, 0 < a → 0 < b → u < v → 0 < a * b * (v - u) := fun ha hb huv =>
    mul_pos (mul_pos ha hb) (sub_pos.2 huv)
  have n00 := n a0p b0p g00
  have n01 := n a0p b1p g01
  have n02 := n a0p b2p g02
  have n03 := n a0p b3p g03
  have n10 := n a1p b0p g10
  have n11 := n a1p b1p g11
  have n12 := n a1p b2p g12
  have n13 := n a1p b3p g13
  have n20 := n a2p b0p g20
  have n21 := n a2p b1p g21
  have n22 := n a2p b2p g22
  have n23 := n a2p b3p g23
  have n30 := n a3p b0p g30
  have n31 := n a3p b1p g31
  have n32 := n a3p b2p g32
  have n33 := n a3p b3p g33
  rcases h' with (h' | h' | h' | h') | (h' | h' | h' | h') | (h' | h' | h' | h') | h' | h' | h' | h'
  · have := m a0p b0p h'; linarith
  · have := m a0p b1p h'; linarith
  · have := m a0p b2p h'; linarith
  · have := m a0p b3p h'; linarith
  · have := m a1p b0p h'; linarith
  · have := m a1p b1p h'; linarith
  · have := m a1p b2p h'; linarith
  · have := m a1p b3p h'; linarith
  · have := m a2p b0p h'; linarith
  · have := m a2p b1p h'; linarith
  · have := m a2p b2p h'; linarith
  · have := m a2p b3p h'; linarith
  · have := m a3p b0p h'; linarith
  · have := m a3p b1p h'; linarith
  · have := m a3p b2p h'; linarith
  · have := m a3p b3p h'; linarith

/-- A point of the table in units of 1/100000000. -/
def unitPoint (K : Type) [Field K] (n : ℤ × ℤ × ℤ) : K × K × K :=
  castPoint K ((n.1 : ℚ) / 100000000, (n.2.1 : ℚ) / 100000000, (n.2.2 : ℚ) / 100000000)

/-- A tetrahedron of the table. -/
def unitTet (K : Type) [Field K] (t : Tet ℤ) : Tet K :=
  (unitPoint K t.1, unitPoint K t.2.1, unitPoint K t.2.2.1, unitPoint K t.2.2.2)

theorem linear3_unit (w n : ℤ × ℤ × ℤ) :
    linear3 ((w.1 : K), (w.2.1 : K), (w.2.2 : K)) (unitPoint K n) = ((linear3 w n : ℤ) : K) / 100000000 := by
  simp only [linear3, unitPoint, castPoint]
  push_cast
  ring

theorem disjoint_of_below {s t : Tet ℤ} {w : ℤ × ℤ × ℤ} (h : below (span3 w s) (span3 w t) = true)
    (x : K × K × K) : (unitTet K s).Inside x → ¬ (unitTet K t).Inside x := by
  rw [below, Bool.and_eq_true] at h
  have h1 := of_decide_eq_true h.1
  have h2 := of_decide_eq_true h.2
  simp only [span3] at h1 h2
  have hle : ∀ a b : ℤ, a ≤ b → ((a : ℤ) : K) / 100000000 ≤ ((b : ℤ) : K) / 100000000 := by
    intro a b hab
    have : (a : K) ≤ b := by exact_mod_cast hab
    exact div_le_div_of_nonneg_right this (by norm_num)
  have hlt : ∀ a b : ℤ, a < b → ((a : ℤ) : K) / 100000000 < ((b : ℤ) : K) / 100000000 := by
    intro a b hab
    have : (a : K) < b := by exact_mod_cast hab
    exact div_lt_div_of_pos_right this (by norm_num)
  refine disjoint_of_linear ((w.1 : K), (w.2.1 : K), (w.2.2 : K)) ?_ ?_ x
  · intro p hp q hq
    have hp' : ∃ n ∈ s.points, p = unitPoint K n := by
      simpa [Tet.points, unitTet] using hp
    have hq' : ∃ n ∈ t.points, q = unitPoint K n := by
      simpa [Tet.points, unitTet] using hq
    obtain ⟨n, hn, rfl⟩ := hp'
    obtain ⟨k, hk, rfl⟩ := hq'
    rw [linear3_unit, linear3_unit]
    refine hle _ _ ?_
    simp only [max_le_iff, le_min_iff] at h1
    simp only [Tet.points, List.mem_cons, List.not_mem_nil, or_false] at hn hk
    rcases hn with rfl | rfl | rfl | rfl <;> rcases hk with rfl | rfl | rfl | rfl <;> tauto
  · have : ∃ n ∈ s.points, ∃ k ∈ t.points, linear3 w n < linear3 w k := by
      by_contra hc
      push Not at hc
      simp only [Tet.points, List.mem_cons, List.not_mem_nil, or_false, forall_eq_or_imp, forall_eq] at hc
      refine absurd h2 (not_lt.2 ?_)
      simp only [max_le_iff, le_min_iff]
      tauto
    obtain ⟨n, hn, k, hk, hnk⟩ := this
    refine ⟨unitPoint K n, ?_, unitPoint K k, ?_, ?_⟩
    · simp only [Tet.points, unitTet, List.mem_cons, List.not_mem_nil, or_false] at hn ⊢
      rcases hn with rfl | rfl | rfl | rfl <;> simp
    · simp only [Tet.points, unitTet, List.mem_cons, List.not_mem_nil, or_false] at hk ⊢
      rcases hk with rfl | rfl | rfl | rfl <;> simp
    · rw [linear3_unit, linear3_unit]
      exact hlt _ _ hnk

theorem disjoint_of_separates {s t : Tet ℤ} (h : ∃ w, separates s t w = true) (x : K × K × K)
    (hs : (unitTet K s).Inside x) : ¬ (unitTet K t).Inside x := by
  obtain ⟨w, h⟩ := h
  simp only [separates, Bool.or_eq_true] at h
  rcases h with h | h
  · exact disjoint_of_below h x hs
  · exact fun ht => disjoint_of_below h x ht hs

end Separation

section C69


/-- The tetrahedra of the ball, in units of 1/100000000. -/
def ballTets : List (Tet ℤ) := ballElements.map fun e =>
  (ballUnits.getD e.1 0, ballUnits.getD e.2.1 0, ballUnits.getD e.2.2.1 0, ballUnits.getD e.2.2.2 0)

theorem ballTets_apart :
    allApart (ballTets.map fun t => (t, directions.map fun w => span3 w t)) = true := by
  decide +kernel

variable {K : Type} [Field K] [LinearOrder K] [IsStrictOrderedRing K]

theorem ballTets_unit : (ballElements.map (corners ballNodes)).map (castTet K) = ballTets.map (unitTet K) := by
  have hget : ∀ i, castPoint K (ballNodes.getD i 0) = unitPoint K (ballUnits.getD i 0) := by
    intro i
    simp only [ballNodes, List.getD_eq_getElem?_getD, List.getElem?_map]
    cases ballUnits[i]? with
    | none => simp [unitPoint, castPoint]
    | some n => rfl
  simp only [ballTets, List.map_map]
  refine List.map_congr_left fun e _ => ?_
  simp only [Function.comp_apply, corners, castTet, unitTet, hget]

/-- C69: over every ordered field the interiors of different tetrahedra of the ball are disjoint. -/
theorem C69_disjoint : DisjointInteriors ((ballElements.map (corners ballNodes)).map (castTet K)) := by
  rw [ballTets_unit]
  unfold DisjointInteriors
  rw [List.pairwise_map]
  exact (separates_of_allApart ballTets_apart).imp fun hst x hs => disjoint_of_separates hst x hs

end C69

end Conmech
