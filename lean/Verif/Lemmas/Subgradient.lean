import Verif.Lemmas.Cost
/-! Lemmas about the contact subgradient. -/
namespace Conmech
open Spec

variable {K : Type _} [Field K]

/-- The pairing of a vector with a direction. -/
def dot (n : ℕ) (p h : ℕ → K) : K := ∑ k ∈ Finset.range n, p k * h k

theorem dot_addAt (n : ℕ) (p h : ℕ → K) (index : ℕ) (value : K) (hi : index < n) :
    dot n (addAt p index value) h = dot n p h + value * h index := by
  unfold dot addAt
  have : ∀ k ∈ Finset.range n, (if k = index then p k + value else p k) * h k =
      p k * h k + (if k = index then value * h index else 0) := fun k _ => by
    split_ifs with hk
    · rw [hk]; ring
    · ring
  rw [Finset.sum_congr rfl this, Finset.sum_add_distrib, Finset.sum_ite_eq',
    if_pos (Finset.mem_range.2 hi)]

theorem dot_foldl {β : Type _} (n : ℕ) (h : ℕ → K) (l : List β) (f : (ℕ → K) → β → ℕ → K) (g : β → K)
    (hf : ∀ b ∈ l, ∀ p, dot n (f p b) h = dot n p h + g b) (p : ℕ → K) :
    dot n (l.foldl f p) h = dot n p h + (l.map g).sum := by
  induction l generalizing p with
  | nil => simp
  | cons b l ih =>
    rw [List.foldl_cons, ih (fun b hb => hf b (List.mem_cons_of_mem _ hb)),
      hf b List.mem_cons_self, List.map_cons, List.sum_cons, add_assoc]

/-- The values of a direction at the nodes; nodes that are not among the unknowns do not move. -/
def directionField (dim n : ℕ) (h : ℕ → K) : ℕ → ℕ → K :=
  nodeValue dim ⟨n, h⟩ ⟨0, fun _ => 0⟩

theorem sum_range_list (dim : ℕ) (f : ℕ → K) :
    ((List.range dim).map f).sum = ∑ i ∈ Finset.range dim, f i := by
  induction dim with
  | zero => simp
  | succ dim ih =>
    rw [List.range_succ, List.map_append, List.sum_append, ih, Finset.sum_range_succ]
    simp

theorem sum_swap (edge : List ℕ) (dim : ℕ) (f : ℕ → ℕ → K) (L : K) (m : ℕ → K) :
    (edge.map fun node => ∑ i ∈ Finset.range dim, f node i / L * m i).sum =
      ∑ i ∈ Finset.range dim, (edge.map fun node => f node i).sum / L * m i := by
  induction edge with
  | nil => simp
  | cons a l ih =>
    simp only [List.map_cons, List.sum_cons, ih]
    rw [← Finset.sum_add_distrib]
    exact Finset.sum_congr rfl fun i _ => by ring

theorem dot_distribute (n dim : ℕ) (s : Surface K) (subgrad : K) (p h : ℕ → K) :
    dot n (distribute (n / dim) dim s subgrad p) h = dot n p h + subgrad *
      ∑ i ∈ Finset.range dim, meanOver s.edge (directionField dim n h) i * s.normal i := by
  unfold distribute
  rw [dot_foldl n h s.edge _ (fun node => subgrad * ∑ i ∈ Finset.range dim,
    directionField dim n h node i / (s.edge.length : K) * s.normal i)]
  · congr 1
    rw [sum_map_mul, sum_swap]
    rfl
  · intro node _ p
    rw [dot_foldl n h (List.range dim) _ (fun i => subgrad *
      (directionField dim n h node i / (s.edge.length : K) * s.normal i))]
    · congr 1
      rw [sum_range_list, Finset.mul_sum]
    · intro i hi p
      have hi := List.mem_range.1 hi
      unfold directionField nodeValue
      simp only
      split_ifs with hn
      · rw [dot_addAt]
        · ring
        · have h1 : n / dim * dim ≤ n := Nat.div_mul_le_self n dim
          have h2 : (i + 1) * (n / dim) ≤ dim * (n / dim) := Nat.mul_le_mul_right _ hi
          rw [Nat.mul_comm] at h1
          have h3 : (i + 1) * (n / dim) = i * (n / dim) + n / dim := by ring
          omega
      · simp

/-- The pairing of the contact subgradient with a direction. Every sample of a surface is paired with
the mean of the direction. -/
theorem dot_contactSubgradient (sqrt : K → K) (c : Conditions K) (d : ContactData K) (var : Flat K)
    (h : ℕ → K) :
    dot var.size (contactSubgradient sqrt c d var) h = (d.surfaces.map fun s =>
      surfaceCost sqrt c d var s * ∑ i ∈ Finset.range d.variableDimension,
        meanOver s.edge (directionField d.variableDimension var.size h) i * s.normal i).sum := by
  unfold contactSubgradient
  rw [dot_foldl var.size h d.surfaces _ (fun s =>
      surfaceCost sqrt c d var s * ∑ i ∈ Finset.range d.variableDimension,
        meanOver s.edge (directionField d.variableDimension var.size h) i * s.normal i)]
  · simp [dot]
  · intro s _ p
    simp only
    rw [dot_foldl var.size h _ _ (fun vm => sampleCost sqrt c d s
      (getNodes s.edge var d.old d.variableDimension).length vm *
      ∑ i ∈ Finset.range d.variableDimension,
        meanOver s.edge (directionField d.variableDimension var.size h) i * s.normal i)]
    · congr 1
      have h1 : (getNodes s.edge var d.old d.variableDimension).length = s.edge.length + 1 := by
        rw [getNodes_eq]; simp
      rw [h1]
      unfold surfaceCost quadrature
      rw [show sampleCost sqrt c d s (s.edge.length + 1) = fun vm => _ from
        funext (sampleCost_eq sqrt c d s (s.edge.length + 1))]
      simp only [mul_comm _ (∑ i ∈ Finset.range d.variableDimension, _), sum_map_mul]
      rw [getNodes_eq, List.map_cons, List.sum_cons, List.map_map]
      rfl
    · intro vm _ p
      rw [dot_distribute]

end Conmech
