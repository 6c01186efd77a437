import Verif.Lemmas.Penalty
import Verif.Props.Reactions
/-!
The cost of contact with an obstacle as a function of the displacement.
-/
namespace Conmech
open Spec

variable {dim N : ℕ} {nodes : ℕ → ℕ → ℝ} {surfaces : List (Surface ℝ)}

theorem length_nonneg (nodes : ℕ → ℕ → ℝ) (edge : List ℕ) : 0 ≤ surfaceLength Real.sqrt nodes edge :=
  Real.sqrt_nonneg _

/-- The conditions which the solvers get from a law with a normal potential, a tangential potential and unit
bounds, neither depending on the static displacement or the time step. -/
noncomputable def obstacleLaw (φ : ℝ → ℝ) (ψ : List ℝ → ℝ) : Conditions ℝ :=
  makeConditions (.function fun v _ _ => φ v) unitBound (.function fun t _ _ => ψ t) unitBound

theorem density_obstacle (φ : ℝ → ℝ) (ψ : List ℝ → ℝ) (dim : ℕ) (n : ℕ → ℝ) (sn : ℝ) (st : List ℝ) (dt : ℝ)
    (x : ℕ → ℝ) : density (obstacleLaw φ ψ) dim n sn st dt x =
      φ (normalComponent dim x n) + ψ (tangentialComponent dim x n) := by
  simp [density, obstacleLaw, makeConditions, Condition.njit, unitBound]

/-- What the solvers take for the contact cost. -/
theorem contactCost_obstacle (φ : ℝ → ℝ) (ψ : List ℝ → ℝ) (d : ContactData ℝ) (hdim : d.variableDimension = dim)
    (hnodes : d.nodes = nodes) (hsurf : d.surfaces = surfaces) (h0 : 0 < dim) (var : Flat ℝ) (x : ℕ → ℝ)
    (h : ∀ s ∈ surfaces, ∀ node ∈ s.edge, ∀ i < dim, nodeValue dim var d.old node i = atNode N x node i) :
    contactCostFunctional Real.sqrt (obstacleLaw φ ψ) d var = obstacleCost dim N nodes surfaces φ ψ x := by
  rw [contactCostFunctional_eq, hsurf]
  unfold obstacleCost
  congr 1
  refine List.map_congr_left fun s hs => ?_
  unfold surfaceCost
  rw [hdim, hnodes, quadrature_congr (obstacleLaw φ ψ) h0 _ _ _ _ _ _ (h s hs)]
  unfold quadrature
  simp only [density_obstacle]

/-- The same for a vector with all unknowns. -/
theorem contactCost_full (φ : ℝ → ℝ) (ψ : List ℝ → ℝ) (d : ContactData ℝ) (hdim : d.variableDimension = dim)
    (hnodes : d.nodes = nodes) (hsurf : d.surfaces = surfaces) (h0 : 0 < dim)
    (hn : ∀ s ∈ surfaces, ∀ node ∈ s.edge, node < N) (x : ℕ → ℝ) :
    contactCostFunctional Real.sqrt (obstacleLaw φ ψ) d ⟨dim * N, x⟩ =
      obstacleCost dim N nodes surfaces φ ψ x := by
  refine contactCost_obstacle φ ψ d hdim hnodes hsurf h0 _ x fun s hs node hnode i hi => ?_
  unfold nodeValue
  simp only [Nat.mul_div_cancel_left _ h0]
  rw [if_pos (hn s hs node hnode)]
  rfl

/-- The quadrature rule is monotone. -/
theorem quadrature_le {edge : List ℕ} {l : ℝ} (hl : 0 ≤ l) {f g : (ℕ → ℝ) → ℝ} {v w : ℕ → ℕ → ℝ} {ε : ℝ}
    (h1 : f (meanOver edge v) ≤ g (meanOver edge w) + ε)
    (h2 : ∀ node ∈ edge, f (v node) ≤ g (w node) + ε) :
    quadrature edge l f v ≤ quadrature edge l g w + l * ε := by
  unfold quadrature
  have h3 : (edge.map fun node => f (v node)).sum ≤ (edge.map fun node => g (w node)).sum + edge.length * ε := by
    clear h1
    induction edge with
    | nil => simp
    | cons a t ih =>
      simp only [List.map_cons, List.sum_cons, List.length_cons]
      have i1 := h2 a (by simp)
      have i2 := ih fun node hnode => h2 node (by simp [hnode])
      push_cast
      linarith
  have hk : (0 : ℝ) < ((edge.length + 1 : ℕ) : ℝ) := by positivity
  have h4 : f (meanOver edge v) + (edge.map fun node => f (v node)).sum ≤
      g (meanOver edge w) + (edge.map fun node => g (w node)).sum + ((edge.length + 1 : ℕ) : ℝ) * ε := by
    push_cast; linarith
  calc l / ((edge.length + 1 : ℕ) : ℝ) * (f (meanOver edge v) + (edge.map fun node => f (v node)).sum)
      ≤ l / ((edge.length + 1 : ℕ) : ℝ) * (g (meanOver edge w) + (edge.map fun node => g (w node)).sum +
        ((edge.length + 1 : ℕ) : ℝ) * ε) := mul_le_mul_of_nonneg_left h4 (by positivity)
    _ = _ := by field_simp

theorem obstacleCost_split (φ : ℝ → ℝ) (ψ : List ℝ → ℝ) (α : ℝ) (x : ℕ → ℝ) :
    obstacleCost dim N nodes surfaces (fun v => α * φ v) ψ x =
      obstacleCost dim N nodes surfaces (fun _ => 0) ψ x +
        α * obstacleCost dim N nodes surfaces φ (fun _ => 0) x := by
  unfold obstacleCost
  rw [← sum_map_mul, ← sum_map_add']
  congr 1
  refine List.map_congr_left fun s _ => ?_
  unfold quadrature
  simp only [zero_add, add_zero, sum_map_add', sum_map_mul]
  ring

theorem obstacleCost_congr (h0 : 0 < dim) (φ : ℝ → ℝ) (ψ : List ℝ → ℝ) {x y : ℕ → ℝ}
    (h : ∀ s ∈ surfaces, ∀ node ∈ s.edge, ∀ i < dim, x (i * N + node) = y (i * N + node)) :
    obstacleCost dim N nodes surfaces φ ψ x = obstacleCost dim N nodes surfaces φ ψ y := by
  unfold obstacleCost
  congr 1
  refine List.map_congr_left fun s hs => ?_
  have := quadrature_congr (obstacleLaw φ ψ) h0 s.normal 0 [] 0 s.edge
    (surfaceLength Real.sqrt nodes s.edge) (v := atNode N x) (w := atNode N y) (h s hs)
  unfold quadrature at this ⊢
  simpa only [density_obstacle] using this

theorem obstacleCost_nonneg {φ : ℝ → ℝ} {ψ : List ℝ → ℝ} (hφ : ∀ r, 0 ≤ φ r) (hψ : ∀ t, 0 ≤ ψ t) (x : ℕ → ℝ) :
    0 ≤ obstacleCost dim N nodes surfaces φ ψ x := by
  refine List.sum_nonneg fun a ha => ?_
  obtain ⟨s, -, rfl⟩ := List.mem_map.1 ha
  refine mul_nonneg (div_nonneg (length_nonneg _ _) (by positivity)) (add_nonneg (add_nonneg (hφ _) (hψ _))
    (List.sum_nonneg fun a ha => ?_))
  obtain ⟨node, -, rfl⟩ := List.mem_map.1 ha
  exact add_nonneg (hφ _) (hψ _)

/-- All surfaces with positive length: the cost bounds the cost at every contact node. -/
theorem obstacleCost_node (hlen : ∀ s ∈ surfaces, 0 < surfaceLength Real.sqrt nodes s.edge) :
    ∃ ω, 0 < ω ∧ ∀ φ : ℝ → ℝ, (∀ r, 0 ≤ φ r) → ∀ x : ℕ → ℝ, ∀ s ∈ surfaces, ∀ node ∈ s.edge,
      ω * φ (normalComponent dim (atNode N x node) s.normal) ≤
        obstacleCost dim N nodes surfaces φ (fun _ => 0) x := by
  induction surfaces with
  | nil => exact ⟨1, one_pos, fun _ _ _ s hs => absurd hs (by simp)⟩
  | cons a t ih =>
    obtain ⟨ω, hω, h⟩ := ih fun s hs => hlen s (by simp [hs])
    have ha := hlen a (by simp)
    set w := surfaceLength Real.sqrt nodes a.edge / ((a.edge.length + 1 : ℕ) : ℝ) with hw
    have hw0 : 0 < w := div_pos ha (by positivity)
    refine ⟨min ω w, lt_min hω hw0, fun φ hφ x s hs node hnode => ?_⟩
    have hsplit : obstacleCost dim N nodes (a :: t) φ (fun _ => 0) x =
        w * (φ (normalComponent dim (meanOver a.edge (atNode N x)) a.normal) +
          (a.edge.map fun node => φ (normalComponent dim (atNode N x node) a.normal)).sum) +
        obstacleCost dim N nodes t φ (fun _ => 0) x := by
      unfold obstacleCost quadrature
      simp [hw]
    have h1 := obstacleCost_nonneg (dim := dim) (N := N) (nodes := nodes) (surfaces := t) (ψ := fun _ => 0) hφ
      (fun _ => le_rfl) x
    have h2 : ∀ node ∈ a.edge, φ (normalComponent dim (atNode N x node) a.normal) ≤
        (a.edge.map fun node => φ (normalComponent dim (atNode N x node) a.normal)).sum := fun node hnode =>
      List.single_le_sum (fun y hy => by
        obtain ⟨m, -, rfl⟩ := List.mem_map.1 hy
        exact hφ _) _ (List.mem_map_of_mem hnode)
    have h3 := hφ (normalComponent dim (meanOver a.edge (atNode N x)) a.normal)
    have h4 := hφ (normalComponent dim (atNode N x node) s.normal)
    have h5 : 0 ≤ (a.edge.map fun node => φ (normalComponent dim (atNode N x node) a.normal)).sum :=
      List.sum_nonneg fun y hy => by
        obtain ⟨m, -, rfl⟩ := List.mem_map.1 hy
        exact hφ _
    rw [hsplit]
    rcases List.mem_cons.1 hs with rfl | hs
    · have := h2 node hnode
      calc min ω w * φ (normalComponent dim (atNode N x node) s.normal) ≤
            w * φ (normalComponent dim (atNode N x node) s.normal) :=
            mul_le_mul_of_nonneg_right (min_le_right _ _) h4
        _ ≤ _ := by nlinarith
    · have := h φ hφ x s hs node hnode
      calc min ω w * φ (normalComponent dim (atNode N x node) s.normal) ≤
            ω * φ (normalComponent dim (atNode N x node) s.normal) :=
            mul_le_mul_of_nonneg_right (min_le_left _ _) h4
        _ ≤ _ := by nlinarith

/-- The mean of the values at the nodes changes at most as much as the field. -/
theorem mean_change (hn : ∀ s ∈ surfaces, ∀ node ∈ s.edge, node < N) (x y : ℕ → ℝ) {s : Surface ℝ} (hs : s ∈ surfaces)
    {i : ℕ} (hi : i < dim) :
    (∀ node ∈ s.edge, |atNode N x node i - atNode N y node i| ≤ fieldSize (dim * N) fun r => x r - y r) ∧
    |meanOver s.edge (atNode N x) i - meanOver s.edge (atNode N y) i| ≤
      fieldSize (dim * N) fun r => x r - y r := by
  set m := fieldSize (dim * N) fun r => x r - y r with hm
  have hm0 : 0 ≤ m := fieldSize_nonneg _ _
  have hnode : ∀ node ∈ s.edge, |atNode N x node i - atNode N y node i| ≤ m := fun node hnode => by
    refine le_fieldSize (n := dim * N) (r := i * N + node) ?_ fun r => x r - y r
    have := hn s hs node hnode
    calc i * N + node < i * N + N := by omega
      _ = (i + 1) * N := by ring
      _ ≤ dim * N := Nat.mul_le_mul_right _ hi
  refine ⟨hnode, ?_⟩
  unfold meanOver
  rw [← sub_div, abs_div, abs_of_nonneg (Nat.cast_nonneg s.edge.length : (0 : ℝ) ≤ _)]
  refine div_le_of_le_mul₀ (Nat.cast_nonneg _) hm0 ?_
  generalize s.edge = edge at hnode
  induction edge with
  | nil => simp
  | cons a t ih =>
    have h1 := hnode a (by simp)
    have h2 := ih fun node hnode' => hnode node (by simp [hnode'])
    simp only [List.map_cons, List.sum_cons, List.length_cons]
    push_cast
    rw [add_sub_add_comm]
    refine (abs_add_le _ _).trans ?_
    linarith

/-- The cost of friction changes at a bounded rate. -/
theorem friction_rate (hn : ∀ s ∈ surfaces, ∀ node ∈ s.edge, node < N) {ψ : List ℝ → ℝ}
    (hψ : Friction dim surfaces ψ) :
    ∃ L, 0 ≤ L ∧ ∀ x y, obstacleCost dim N nodes surfaces (fun _ => 0) ψ x -
      obstacleCost dim N nodes surfaces (fun _ => 0) ψ y ≤ L * fieldSize (dim * N) fun r => x r - y r := by
  obtain ⟨l, hl, hrate⟩ := hψ.rate
  refine ⟨(surfaces.map fun s => surfaceLength Real.sqrt nodes s.edge).sum * (l * dim), ?_, fun x y => ?_⟩
  · refine mul_nonneg (List.sum_nonneg fun a ha => ?_) (by positivity)
    obtain ⟨s, -, rfl⟩ := List.mem_map.1 ha
    exact length_nonneg _ _
  set m := fieldSize (dim * N) fun r => x r - y r with hm
  have key : ∀ s ∈ surfaces, quadrature s.edge (surfaceLength Real.sqrt nodes s.edge)
      (fun y => 0 + ψ (tangentialComponent dim y s.normal)) (atNode N x) ≤
      quadrature s.edge (surfaceLength Real.sqrt nodes s.edge)
        (fun y => 0 + ψ (tangentialComponent dim y s.normal)) (atNode N y) +
        surfaceLength Real.sqrt nodes s.edge * (l * dim * m) := by
    intro s hs
    have hsum : ∀ z w : ℕ → ℝ, (∀ i < dim, |z i - w i| ≤ m) →
        l * ∑ i ∈ Finset.range dim, |z i - w i| ≤ l * dim * m := fun z w h => by
      rw [mul_assoc]
      refine mul_le_mul_of_nonneg_left ?_ hl
      refine (Finset.sum_le_sum fun i hi => h i (Finset.mem_range.1 hi)).trans (le_of_eq ?_)
      simp
    refine quadrature_le (length_nonneg _ _) ?_ fun node hnode => ?_
    · have := hrate s hs (meanOver s.edge (atNode N x)) (meanOver s.edge (atNode N y))
      have h2 := hsum (meanOver s.edge (atNode N x)) (meanOver s.edge (atNode N y)) fun i hi => (mean_change hn x y hs hi).2
      linarith
    · have := hrate s hs (atNode N x node) (atNode N y node)
      have h2 := hsum (atNode N x node) (atNode N y node) fun i hi => (mean_change hn x y hs hi).1 node hnode
      linarith
  unfold obstacleCost
  have htotal : ∀ l' : List (Surface ℝ), (∀ s ∈ l', s ∈ surfaces) →
      (l'.map fun s => quadrature s.edge (surfaceLength Real.sqrt nodes s.edge)
        (fun y => 0 + ψ (tangentialComponent dim y s.normal)) (atNode N x)).sum ≤
      (l'.map fun s => quadrature s.edge (surfaceLength Real.sqrt nodes s.edge)
        (fun y => 0 + ψ (tangentialComponent dim y s.normal)) (atNode N y)).sum +
        (l'.map fun s => surfaceLength Real.sqrt nodes s.edge).sum * (l * dim * m) := by
    intro l' hl'
    induction l' with
    | nil => simp
    | cons a t ih =>
      have h1 := key a (hl' a (by simp))
      have h2 := ih fun s hs => hl' s (by simp [hs])
      simp only [List.map_cons, List.sum_cons]
      nlinarith
  have := htotal surfaces fun _ h => h
  rw [sub_le_iff_le_add]
  refine this.trans (le_of_eq ?_)
  ring

theorem atNode_combine (N : ℕ) (x y : ℕ → ℝ) (a b : ℝ) :
    atNode N (fun i => a * x i + b * y i) = fun node i => a * atNode N x node i + b * atNode N y node i := rfl

/-- The cost of friction is convex. -/
theorem friction_convex {ψ : List ℝ → ℝ} (hψ : Friction dim surfaces ψ) :
    ConvexVec (obstacleCost dim N nodes surfaces (fun _ => 0) ψ) := by
  intro x y a b ha hb hab
  unfold obstacleCost
  rw [← sum_map_mul, ← sum_map_mul, ← sum_map_add']
  refine List.sum_le_sum fun s hs => ?_
  rw [atNode_combine]
  refine quadrature_convex _ _ (length_nonneg _ _) _ ?_ _ _ a b ha hb hab
  simpa using hψ.convex s hs

theorem continuous_atNode {n : ℕ} (N node i : ℕ) : Continuous fun x : Fin n → ℝ => atNode N (extendZero n x) node i := by
  simp only [atNode, extendZero]
  split_ifs
  · exact continuous_apply _
  · exact continuous_const

theorem continuous_listsum {X ι : Type*} [TopologicalSpace X] (l : List ι) (f : ι → X → ℝ)
    (h : ∀ i ∈ l, Continuous (f i)) : Continuous fun x => (l.map fun i => f i x).sum := by
  induction l with
  | nil => simpa using continuous_const
  | cons a t ih =>
    simp only [List.map_cons, List.sum_cons]
    exact (h a (by simp)).add (ih fun i hi => h i (by simp [hi]))

theorem continuous_normal {X : Type*} [TopologicalSpace X] (dim : ℕ) (n : ℕ → ℝ) (f : X → ℕ → ℝ)
    (h : ∀ i, Continuous fun x => f x i) : Continuous fun x => normalComponent dim (f x) n := by
  unfold normalComponent
  split_ifs
  · exact h 0
  · exact continuous_finsetSum _ fun i _ => (h i).mul continuous_const

/-- The normal part of the cost is continuous if the law is. -/
theorem continuous_obstacle {n : ℕ} {φ : ℝ → ℝ} (hφ : Continuous φ) :
    Continuous fun x : Fin n → ℝ => obstacleCost dim N nodes surfaces φ (fun _ => 0) (extendZero n x) := by
  unfold obstacleCost
  refine continuous_listsum _ _ fun s _ => ?_
  unfold quadrature
  simp only [add_zero]
  refine continuous_const.mul ((hφ.comp (continuous_normal dim s.normal _ fun i => ?_)).add
    (continuous_listsum _ _ fun node _ => hφ.comp (continuous_normal dim s.normal _ fun i =>
      continuous_atNode N node i)))
  unfold meanOver
  exact (continuous_listsum _ _ fun node _ => continuous_atNode N node i).div_const _

/-- The tangential part is continuous because it changes at a bounded rate. -/
theorem continuous_friction {N : ℕ} (hn : ∀ s ∈ surfaces, ∀ node ∈ s.edge, node < N) {ψ : List ℝ → ℝ}
    (hψ : Friction dim surfaces ψ) : Continuous fun x : Fin (dim * N) → ℝ =>
      obstacleCost dim N nodes surfaces (fun _ => 0) ψ (extendZero (dim * N) x) := by
  obtain ⟨L, hL, h⟩ := friction_rate (nodes := nodes) hn hψ
  refine LipschitzWith.continuous (K := Real.toNNReal L) (LipschitzWith.of_dist_le_mul fun x y => ?_)
  rw [Real.coe_toNNReal _ hL, Real.dist_eq]
  have key : ∀ x y : Fin (dim * N) → ℝ,
      (fieldSize (dim * N) fun r => extendZero (dim * N) x r - extendZero (dim * N) y r) = dist x y := by
    intro x y
    rw [dist_eq_norm]
    unfold fieldSize
    congr 1
    funext r
    simp [extendZero]
  have h1 := h (extendZero (dim * N) x) (extendZero (dim * N) y)
  have h2 := h (extendZero (dim * N) y) (extendZero (dim * N) x)
  rw [key] at h1 h2
  rw [dist_comm] at h2
  exact abs_sub_le_iff.2 ⟨h1, h2⟩

end Conmech
