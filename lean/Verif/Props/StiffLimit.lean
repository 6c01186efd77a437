import Verif.Lemmas.Least
import Verif.Props.DirectStep
import Verif.Props.ExampleLaws
import Verif.Props.Minimise
import Mathlib.Analysis.InnerProductSpace.PiL2
import Mathlib.Algebra.Order.BigOperators.Ring.Finset
/-!
C114: very stiff obstacles act like rigid ones, and contact surfaces with a very high heat exchange like
walls of a given temperature.
-/
namespace Conmech
open Spec

section fields
variable {dim N : ℕ} {nodes : ℕ → ℕ → ℝ} {surfaces : List (Surface ℝ)} {D : ℕ → Prop} {g : ℕ → ℝ}
  {S : System ℝ}

theorem edge_nonempty (hlen : ∀ s ∈ surfaces, 0 < surfaceLength Real.sqrt nodes s.edge) {s : Surface ℝ}
    (hs : s ∈ surfaces) : s.edge ≠ [] := by
  intro h
  have := hlen s hs
  rw [h] at this
  simp [surfaceLength] at this

theorem normalComponent_bound (hn : ∀ s ∈ surfaces, ∀ node ∈ s.edge, node < N) :
    ∃ M, 0 ≤ M ∧ ∀ (y : ℕ → ℝ) (B : ℝ), 0 ≤ B → (∀ r < dim * N, |y r| ≤ B) → 0 < dim →
      ∀ s ∈ surfaces, ∀ node ∈ s.edge, |normalComponent dim (atNode N y node) s.normal| ≤ B * M := by
  set f : Surface ℝ → ℝ := fun s => 1 + ∑ i ∈ Finset.range dim, |s.normal i| with hf
  have hf0 : ∀ s, 0 ≤ f s := fun s => add_nonneg zero_le_one (Finset.sum_nonneg fun i _ => abs_nonneg _)
  refine ⟨(surfaces.map f).sum, List.sum_nonneg fun a ha => ?_, fun y B hB hy hd s hs node hnode => ?_⟩
  · obtain ⟨s, -, rfl⟩ := List.mem_map.1 ha
    exact hf0 s
  have hle : f s ≤ (surfaces.map f).sum := List.single_le_sum (fun a ha => by
    obtain ⟨s, -, rfl⟩ := List.mem_map.1 ha
    exact hf0 s) _ (List.mem_map_of_mem hs)
  refine le_trans ?_ (mul_le_mul_of_nonneg_left hle hB)
  have hval : ∀ i < dim, |atNode N y node i| ≤ B := fun i hi => by
    refine hy _ ?_
    have := hn s hs node hnode
    calc i * N + node < i * N + N := by omega
      _ = (i + 1) * N := by ring
      _ ≤ dim * N := Nat.mul_le_mul_right _ hi
  have hsum : 0 ≤ ∑ i ∈ Finset.range dim, |s.normal i| := Finset.sum_nonneg fun i _ => abs_nonneg _
  unfold normalComponent
  split_ifs with h1
  · refine (hval 0 hd).trans ?_
    rw [hf]; beta_reduce
    nlinarith
  · refine (Finset.abs_sum_le_sum_abs _ _).trans ?_
    calc ∑ i ∈ Finset.range dim, |atNode N y node i * s.normal i| ≤ ∑ i ∈ Finset.range dim, B * |s.normal i| := by
          refine Finset.sum_le_sum fun i hi => ?_
          rw [abs_mul]
          exact mul_le_mul_of_nonneg_right (hval i (Finset.mem_range.1 hi)) (abs_nonneg _)
      _ = B * ∑ i ∈ Finset.range dim, |s.normal i| := by rw [Finset.mul_sum]
      _ ≤ B * f s := by rw [hf]; beta_reduce; nlinarith

theorem outside_convex {b : ℝ} {y z : ℕ → ℝ} (hy : Outside dim N surfaces b y) (hz : Outside dim N surfaces b z)
    {t : ℝ} (h0 : 0 < t) (h1 : t ≤ 1) : Outside dim N surfaces b fun i => (1 - t) * y i + t * z i := by
  intro s hs node hnode
  rw [atNode_combine]
  rw [normalComponent_combine]
  have := hy s hs node hnode
  have := hz s hs node hnode
  nlinarith

/-- The law costs nothing in front of the obstacle. -/
theorem outside_free {b : ℝ} {φ : ℝ → ℝ} (hφ : Repels b φ)
    (hlen : ∀ s ∈ surfaces, 0 < surfaceLength Real.sqrt nodes s.edge) {x : ℕ → ℝ}
    (hx : Outside dim N surfaces b x) : obstacleCost dim N nodes surfaces φ (fun _ => 0) x = 0 := by
  refine List.sum_eq_zero fun a ha => ?_
  obtain ⟨s, hs, rfl⟩ := List.mem_map.1 ha
  have hne := edge_nonempty hlen hs
  unfold quadrature
  have h1 : normalComponent dim (meanOver s.edge (atNode N x)) s.normal ≤ b := by
    rw [normalComponent_mean]
    have hk : (0 : ℝ) < s.edge.length := by exact_mod_cast List.length_pos_of_ne_nil hne
    rw [div_le_iff₀ hk]
    have := List.sum_le_card_nsmul (s.edge.map fun node => normalComponent dim (atNode N x node) s.normal) b
      (fun a ha => by
        obtain ⟨node, hnode, rfl⟩ := List.mem_map.1 ha
        exact hx s hs node hnode)
    rw [List.length_map, nsmul_eq_mul] at this
    linarith
  beta_reduce
  rw [hφ.before _ h1, List.sum_eq_zero]
  · simp
  · intro a ha
    obtain ⟨node, hnode, rfl⟩ := List.mem_map.1 ha
    rw [hφ.before _ (hx s hs node hnode), add_zero]

/-- C114. A body on an obstacle which becomes stiffer and stiffer, with or without friction. There is a `K`,
which depends on the body, its loads, the obstacle and the law but not on the stiffness `α`, such that
in every field of least energy no contact node is deeper than `K / α` in the obstacle, and the elastic
energy of the difference to the equilibrium on the rigid obstacle, like the square of the difference at
every node, is at most `K / α`. -/
theorem C114_obstacle (hdim : 0 < dim) (hA : StoresEnergy (dim * N) S.lhs) (hdef : DefiniteOn (dim * N) D S.lhs)
    (hn : ∀ s ∈ surfaces, ∀ node ∈ s.edge, node < N)
    (hlen : ∀ s ∈ surfaces, 0 < surfaceLength Real.sqrt nodes s.edge) {b : ℝ} {φ : ℝ → ℝ} (hφ : Repels b φ)
    {ψ : List ℝ → ℝ} (hψ : Friction dim surfaces ψ) {w : ℕ → ℝ} (hw : CanLift dim N D surfaces w)
    {x₀ : ℕ → ℝ} (h₀ : LeastUnder (dim * N) D g S (obstacleCost dim N nodes surfaces (fun _ => 0) ψ)
      (Outside dim N surfaces b) x₀) :
    ∃ K, 0 ≤ K ∧ ∀ α, 0 < α → ∀ x, HeldMinimiser (dim * N) D g
        (fun y => energy (dim * N) S y + obstacleCost dim N nodes surfaces (fun v => α * φ v) ψ y) x →
      (∀ s ∈ surfaces, ∀ node ∈ s.edge, normalComponent dim (atNode N x node) s.normal ≤ b + K / α) ∧
      quad (dim * N) S.lhs (fun i => x i - x₀ i) ≤ K / α ∧ ∀ r < dim * N, (x r - x₀ r) ^ 2 ≤ K / α := by
  obtain ⟨L, hL, hrate⟩ := friction_rate (nodes := nodes) hn hψ
  obtain ⟨ω, hω, hnode⟩ := obstacleCost_node (dim := dim) (N := N) (nodes := nodes) hlen
  obtain ⟨M, hM, hbound⟩ := normalComponent_bound (dim := dim) hn
  set Φ := obstacleCost dim N nodes surfaces φ (fun _ => 0) with hΦ
  have hΦ0 : ∀ y, 0 ≤ Φ y := obstacleCost_nonneg hφ.nonneg fun _ => le_rfl
  have hdepth : ∀ c, 0 < c → ∀ β, 0 < β → ∀ y s node, s ∈ surfaces → node ∈ s.edge →
      (b ≤ normalComponent dim (atNode N y node) s.normal →
        c * (normalComponent dim (atNode N y node) s.normal - b) ^ 2 ≤
          φ (normalComponent dim (atNode N y node) s.normal)) → Φ y ≤ β →
      normalComponent dim (atNode N y node) s.normal ≤ b + Real.sqrt (β / (ω * c)) := by
    intro c hc β _ y s node hs hnd hgr hβ
    rcases le_total (normalComponent dim (atNode N y node) s.normal) b with h | h
    · exact h.trans (le_add_of_nonneg_right (Real.sqrt_nonneg _))
    · have h1 := hnode φ hφ.nonneg y s hs node hnd
      have h2 := hgr h
      have h3 : (normalComponent dim (atNode N y node) s.normal - b) ^ 2 ≤ β / (ω * c) := by
        rw [le_div_iff₀ (by positivity)]
        have : ω * (c * (normalComponent dim (atNode N y node) s.normal - b) ^ 2) ≤ β :=
          ((mul_le_mul_of_nonneg_left h2 hω.le).trans h1).trans hβ
        linarith
      have := Real.le_sqrt_of_sq_le h3
      linarith
  obtain ⟨K, B, hK, hB, hest⟩ := penalty_estimate (Φ := Φ) hA hdef (friction_convex (N := N) (nodes := nodes) hψ) hL
    hrate h₀ (outside_free hφ hlen h₀.allowed) hΦ0
    (fun y z hy hz t h0 h1 => outside_convex hy hz h0 h1)
    (fun B => by
      obtain ⟨c, hc, hgr⟩ := hφ.grows (|B| * M)
      set W := fieldSize (dim * N) w with hW
      have hW0 : 0 ≤ W := fieldSize_nonneg _ _
      refine ⟨ω * c / (W + 1) ^ 2, by positivity, fun y hy hyB => ?_⟩
      set δ := Real.sqrt (Φ y / (ω * c)) with hδ
      have hδ0 : 0 ≤ δ := Real.sqrt_nonneg _
      have hδ2 : δ ^ 2 = Φ y / (ω * c) := Real.sq_sqrt (div_nonneg (hΦ0 y) (by positivity))
      refine ⟨fun i => 1 * y i + δ * w i, δ * (W + 1), fun r hr hD => ?_, fun s hs node hnd => ?_,
        by positivity, ?_, fieldSize_le (by positivity) fun r hr => ?_⟩
      · beta_reduce
        rw [hw.1 r hr hD, hy r hr hD]; ring
      · by_cases hheld : ∀ i < dim, D (i * N + node)
        · have : normalComponent dim (atNode N (fun i => 1 * y i + δ * w i) node) s.normal =
              normalComponent dim (atNode N x₀ node) s.normal := by
            refine normalComponent_congr hdim _ fun i hi => ?_
            have hlt : i * N + node < dim * N := by
              have := hn s hs node hnd
              calc i * N + node < i * N + N := by omega
                _ = (i + 1) * N := by ring
                _ ≤ dim * N := Nat.mul_le_mul_right _ hi
            simp only [atNode]
            rw [hw.1 _ hlt (hheld i hi), hy _ hlt (hheld i hi), h₀.held _ hlt (hheld i hi)]
            ring
          rw [this]
          exact h₀.allowed s hs node hnd
        · have hlift := (hw.2 s hs node hnd).resolve_left hheld
          rw [atNode_combine, normalComponent_combine]
          have habs := hbound y |B| (abs_nonneg _) (fun r hr => (hyB r hr).trans (le_abs_self B)) hdim s hs node hnd
          have hd : normalComponent dim (atNode N y node) s.normal ≤ b + δ := by
            rcases (hΦ0 y).eq_or_lt with h0 | h0
            · rcases le_total (normalComponent dim (atNode N y node) s.normal) b with h | h
              · linarith
              · have h1 := hnode φ hφ.nonneg y s hs node hnd
                have h2 := hgr _ h ((le_abs_self _).trans habs)
                have h3 : ω * (c * (normalComponent dim (atNode N y node) s.normal - b) ^ 2) ≤ 0 :=
                  ((mul_le_mul_of_nonneg_left h2 hω.le).trans h1).trans h0.ge
                have h4 : (normalComponent dim (atNode N y node) s.normal - b) ^ 2 ≤ 0 := by
                  by_contra hne
                  push Not at hne
                  have : 0 < ω * (c * (normalComponent dim (atNode N y node) s.normal - b) ^ 2) := by positivity
                  linarith
                have h5 : normalComponent dim (atNode N y node) s.normal - b = 0 := by
                  have := le_antisymm h4 (sq_nonneg _)
                  exact pow_eq_zero_iff (two_ne_zero) |>.1 this
                linarith
            · exact hdepth c hc (Φ y) h0 y s node hs hnd (fun h => hgr _ h ((le_abs_self _).trans habs)) le_rfl
          have : δ * normalComponent dim (atNode N w node) s.normal ≤ δ * (-1) :=
            mul_le_mul_of_nonneg_left hlift hδ0
          linarith
      · rw [mul_pow, hδ2]
        have h1 : 0 < W + 1 := by linarith
        refine le_of_eq ?_
        field_simp
      · have : y r - (1 * y r + δ * w r) = -(δ * w r) := by ring
        beta_reduce
        rw [this, abs_neg, abs_mul, abs_of_nonneg hδ0]
        refine mul_le_mul_of_nonneg_left ((le_fieldSize hr w).trans (by linarith)) hδ0)
  obtain ⟨c, hc, hgr⟩ := hφ.grows (B * M)
  obtain ⟨κ, hκ, hcoer⟩ := fieldSize_sq hA hdef
  set K₁ := Real.sqrt ((K + 1) / (ω * c)) with hK₁
  refine ⟨max K₁ (max K (κ * K)), le_max_of_le_left (Real.sqrt_nonneg _), fun α hα x hx => ?_⟩
  obtain ⟨h1, h2, h3⟩ := hest α hα x ⟨hx.1, fun v hv => by
    have := hx.2 v hv
    beta_reduce at this ⊢
    rw [obstacleCost_split, obstacleCost_split] at this
    linarith⟩
  refine ⟨fun s hs node hnd => ?_, h3.trans (div_le_div_of_nonneg_right
    ((le_max_left _ _).trans (le_max_right _ _)) hα.le), fun r hr => ?_⟩
  · have habs := hbound x B hB h1 hdim s hs node hnd
    have hlt : Φ x ≤ (K + 1) / α ^ 2 := h2.trans (div_le_div_of_nonneg_right (by linarith) (by positivity))
    have := hdepth c hc ((K + 1) / α ^ 2) (by positivity) x s node hs hnd
      (fun h => hgr _ h ((le_abs_self _).trans habs)) hlt
    have e : Real.sqrt ((K + 1) / α ^ 2 / (ω * c)) = K₁ / α := by
      rw [div_right_comm, Real.sqrt_div' _ (by positivity), Real.sqrt_sq hα.le]
    rw [e] at this
    exact this.trans (add_le_add_right (div_le_div_of_nonneg_right (le_max_left _ _) hα.le) _)
  · have hst : Still (dim * N) D fun i => x i - x₀ i := heldTo_sub hx.1 h₀.held
    have h4 := hcoer _ hst
    have h5 : (x r - x₀ r) ^ 2 ≤ fieldSize (dim * N) (fun i => x i - x₀ i) ^ 2 :=
      sq_le_sq' (by
        have := le_fieldSize hr fun i => x i - x₀ i
        linarith [neg_abs_le (x r - x₀ r)]) ((le_abs_self _).trans (le_fieldSize hr fun i => x i - x₀ i))
    calc (x r - x₀ r) ^ 2 ≤ κ * (K / α) := h5.trans (h4.trans (mul_le_mul_of_nonneg_left h3 hκ.le))
      _ = κ * K / α := by ring
      _ ≤ _ := div_le_div_of_nonneg_right ((le_max_right _ _).trans (le_max_right _ _)) hα.le

/-- C114. A body with heat exchange through its contact surfaces that becomes better and better. The
temperature at every node, not only at the contact nodes, is at most `K / α` away from that of the
body whose contact nodes are held at the level `b`. The law may well not be convex. -/
theorem C114_level (hA : StoresEnergy N S.lhs) (hdef : DefiniteOn N D S.lhs)
    (hn : ∀ s ∈ surfaces, ∀ node ∈ s.edge, node < N ∧ ¬ D node)
    (hlen : ∀ s ∈ surfaces, 0 < surfaceLength Real.sqrt nodes s.edge) {b : ℝ} {φ : ℝ → ℝ} (hφ : Attracts b φ)
    {x₀ : ℕ → ℝ} (h₀ : LeastUnder N D g S (fun _ => 0) (AtLevel surfaces b) x₀) :
    ∃ K, 0 ≤ K ∧ ∀ α, 0 < α → ∀ x, HeldMinimiser N D g
        (fun y => energy N S y + obstacleCost 1 N nodes surfaces (fun v => α * φ v) (fun _ => 0) y) x →
      ∀ r < N, |x r - x₀ r| ≤ K / α := by
  set G : ℕ → Prop := fun r => ∃ s ∈ surfaces, r ∈ s.edge with hG
  have hZ : ∀ y : ℕ → ℝ, (∀ r < N, G r → y r = b) ↔ AtLevel surfaces b y := fun y =>
    ⟨fun h s hs node hnd => h node (hn s hs node hnd).1 ⟨s, hs, hnd⟩, fun h r _ ⟨s, hs, hnd⟩ => h s hs r hnd⟩
  have hnc : ∀ (x : ℕ → ℝ) (node : ℕ) (v : ℕ → ℝ), normalComponent 1 (atNode N x node) v = x node := fun x node v => by
    simp [normalComponent, atNode]
  obtain ⟨ω, hω, hnode⟩ := obstacleCost_node (dim := 1) (N := N) (nodes := nodes) hlen
  obtain ⟨K, hK, h⟩ := level_estimate (G := G) (b := b) (Φ := obstacleCost 1 N nodes surfaces φ (fun _ => 0)) hA hdef
    (fun r _ ⟨s, hs, hr⟩ => (hn s hs r hr).2)
    ⟨h₀.held, (hZ x₀).2 h₀.allowed, fun y hy hyG => h₀.least y hy ((hZ y).1 hyG)⟩
    (fun y hy => by
      have hlev := (hZ y).1 hy
      refine List.sum_eq_zero fun a ha => ?_
      obtain ⟨s, hs, rfl⟩ := List.mem_map.1 ha
      have hne := edge_nonempty hlen hs
      unfold quadrature
      have h1 : normalComponent 1 (meanOver s.edge (atNode N y)) s.normal = b := by
        rw [normalComponent_mean]
        have hk : (0 : ℝ) < s.edge.length := by exact_mod_cast List.length_pos_of_ne_nil hne
        rw [div_eq_iff hk.ne', List.map_congr_left fun node hnd => (hnc y node s.normal).trans (hlev s hs node hnd)]
        simp [mul_comm]
      beta_reduce
      rw [h1, hφ.level, List.sum_eq_zero]
      · simp
      · intro a ha
        obtain ⟨node, hnd, rfl⟩ := List.mem_map.1 ha
        rw [hnc, hlev s hs node hnd, hφ.level, add_zero])
    (obstacleCost_nonneg hφ.nonneg fun _ => le_rfl)
    (fun x y hxy => obstacleCost_congr one_pos _ _ fun s hs node hnd i hi => by
      obtain rfl : i = 0 := by omega
      rw [Nat.zero_mul, Nat.zero_add]
      exact hxy node (hn s hs node hnd).1 ⟨s, hs, hnd⟩)
    (fun B => by
      obtain ⟨c, hc, hgr⟩ := hφ.grows (|B| + |b|)
      refine ⟨ω * c, by positivity, fun y hy r hr ⟨s, hs, hnd⟩ => ?_⟩
      have h1 := hnode φ hφ.nonneg y s hs r hnd
      rw [hnc] at h1
      have h2 := hgr (y r) ((abs_sub _ _).trans (add_le_add_left ((hy r hr).trans (le_abs_self B)) _))
      rw [mul_assoc]
      exact (mul_le_mul_of_nonneg_left h2 hω.le).trans h1)
  refine ⟨K, hK, fun α hα x hx => h α hα x ⟨hx.1, fun v hv => ?_⟩⟩
  have := hx.2 v hv
  beta_reduce at this ⊢
  have hz : ∀ y, obstacleCost 1 N nodes surfaces (fun _ => 0) (fun _ => 0) y = 0 := fun y => by
    unfold obstacleCost quadrature
    simp
  rw [obstacleCost_split, obstacleCost_split, hz, hz] at this
  linarith

end fields

section exist
variable {dim N : ℕ} {nodes : ℕ → ℕ → ℝ} {surfaces : List (Surface ℝ)} {D : ℕ → Prop} {g : ℕ → ℝ}
  {S : System ℝ}

theorem outside_same {b : ℝ} (h0 : 0 < dim) (hn : ∀ s ∈ surfaces, ∀ node ∈ s.edge, node < N) (x y : ℕ → ℝ)
    (h : ∀ r < dim * N, x r = y r) (hx : Outside dim N surfaces b x) : Outside dim N surfaces b y := by
  intro s hs node hnode
  have e : normalComponent dim (atNode N x node) s.normal = normalComponent dim (atNode N y node) s.normal :=
    normalComponent_congr h0 s.normal fun i hi => h (i * N + node) (by
      have := hn s hs node hnode
      calc i * N + node < i * N + N := by omega
        _ = (i + 1) * N := by ring
        _ ≤ dim * N := Nat.mul_le_mul_right _ hi)
  rw [← e]
  exact hx s hs node hnode

theorem outside_closed (n : ℕ) (b : ℝ) : IsClosed {y : Fin n → ℝ | Outside dim N surfaces b (extendZero n y)} := by
  unfold Outside
  simp only [Set.ofPred_forall]
  refine isClosed_iInter fun s => isClosed_iInter fun _ => isClosed_iInter fun node => isClosed_iInter fun _ => ?_
  exact isClosed_le (continuous_normal dim s.normal _ fun i => continuous_atNode N node i) continuous_const

theorem continuous_law (hn : ∀ s ∈ surfaces, ∀ node ∈ s.edge, node < N) {φ : ℝ → ℝ} (hφ : Continuous φ)
    {ψ : List ℝ → ℝ} (hψ : Friction dim surfaces ψ) :
    Continuous fun x : Fin (dim * N) → ℝ => obstacleCost dim N nodes surfaces φ ψ (extendZero (dim * N) x) := by
  have e : ∀ x, obstacleCost dim N nodes surfaces φ ψ x = obstacleCost dim N nodes surfaces (fun _ => 0) ψ x +
      1 * obstacleCost dim N nodes surfaces φ (fun _ => 0) x := fun x => by
    rw [← obstacleCost_split]
    simp only [one_mul]
  simp only [e]
  exact (continuous_friction hn hψ).add (continuous_const.mul (continuous_obstacle hφ))

/-- There is at most one field of least energy with a convex cost under a convex constraint. -/
theorem least_unique {n : ℕ} (hA : StoresEnergy n S.lhs) (hdef : DefiniteOn n D S.lhs) {J : (ℕ → ℝ) → ℝ}
    (hJ : ConvexVec J) {Z : (ℕ → ℝ) → Prop}
    (hZ : ∀ y z, Z y → Z z → ∀ t, 0 < t → t ≤ 1 → Z fun i => (1 - t) * y i + t * z i) {x y : ℕ → ℝ}
    (hx : LeastUnder n D g S J Z x) (hy : LeastUnder n D g S J Z y) : ∀ r < n, y r = x r := by
  have h1 := leastUnder_variational hA.symm hJ hx hy.held fun t h0 h1 => hZ x y hx.allowed hy.allowed t h0 h1
  have h2 := hy.least x hx.held hx.allowed
  rw [energy_next S hA.symm x y] at h2
  have h3 : quad n S.lhs (fun i => y i - x i) = 0 :=
    le_antisymm (by linarith) (hA.nonneg _)
  intro r hr
  have := hdef _ (heldTo_sub hy.held hx.held) h3 r hr
  linarith

/-- Equilibria exist for every law that is not negative. -/
theorem exists_law (hdim : 0 < dim) (hA : StoresEnergy (dim * N) S.lhs) (hdef : DefiniteOn (dim * N) D S.lhs)
    (hn : ∀ s ∈ surfaces, ∀ node ∈ s.edge, node < N) {φ : ℝ → ℝ} (hφ : Continuous φ) (hφ0 : ∀ r, 0 ≤ φ r)
    {ψ : List ℝ → ℝ} (hψ : Friction dim surfaces ψ) {Z : (ℕ → ℝ) → Prop}
    (hZn : ∀ x y, (∀ r < dim * N, x r = y r) → Z x → Z y)
    (hZc : IsClosed {y : Fin (dim * N) → ℝ | Z (extendZero (dim * N) y)})
    {x₁ : ℕ → ℝ} (h₁ : HeldTo (dim * N) D g x₁) (hZ₁ : Z x₁) :
    ∃ x, LeastUnder (dim * N) D g S (obstacleCost dim N nodes surfaces φ ψ) Z x :=
  exists_least hA hdef (obstacleCost_nonneg hφ0 hψ.nonneg)
    (fun x y h => obstacleCost_same hdim hn x y h) (continuous_law hn hφ hψ) hZn hZc h₁ hZ₁

/-- C114. The equilibria that `C114_obstacle` is about exist, and there is only one on the rigid obstacle: on
every body which can be lifted off the obstacle and whose supports are not behind it. -/
theorem C114_obstacle_exists (hdim : 0 < dim) (hA : StoresEnergy (dim * N) S.lhs)
    (hdef : DefiniteOn (dim * N) D S.lhs) (hn : ∀ s ∈ surfaces, ∀ node ∈ s.edge, node < N) {b : ℝ} {φ : ℝ → ℝ}
    (hφ : Repels b φ) (hc : Continuous φ) {ψ : List ℝ → ℝ} (hψ : Friction dim surfaces ψ) {w : ℕ → ℝ}
    (hw : CanLift dim N D surfaces w)
    (hg : ∀ s ∈ surfaces, ∀ node ∈ s.edge, (∀ i < dim, D (i * N + node)) →
      normalComponent dim (atNode N g node) s.normal ≤ b) :
    (∀ α, 0 < α → ∃ x, HeldMinimiser (dim * N) D g (fun y => energy (dim * N) S y +
      obstacleCost dim N nodes surfaces (fun v => α * φ v) ψ y) x) ∧
    ∃ x₀, LeastUnder (dim * N) D g S (obstacleCost dim N nodes surfaces (fun _ => 0) ψ)
        (Outside dim N surfaces b) x₀ ∧
      ∀ x₁, LeastUnder (dim * N) D g S (obstacleCost dim N nodes surfaces (fun _ => 0) ψ)
        (Outside dim N surfaces b) x₁ → ∀ r < dim * N, x₁ r = x₀ r := by
  classical
  constructor
  · intro α hα
    obtain ⟨x, hx⟩ := exists_law (nodes := nodes) (g := g) (S := S) (φ := fun v => α * φ v) (Z := fun _ => True)
      (x₁ := g) hdim hA hdef hn (continuous_const.mul hc) (fun r => mul_nonneg hα.le (hφ.nonneg r)) hψ
      (fun _ _ _ h => h) (by simp) (fun _ _ _ => rfl) trivial
    exact ⟨x, hx.held, fun v hv => hx.least v hv trivial⟩
  · obtain ⟨M, hM, hbound⟩ := normalComponent_bound (dim := dim) hn
    set T := fieldSize (dim * N) g * M + |b| with hT
    have hT0 : 0 ≤ T := add_nonneg (mul_nonneg (fieldSize_nonneg _ _) hM) (abs_nonneg _)
    obtain ⟨x₀, h₀⟩ := exists_law (nodes := nodes) (g := g) (S := S) (φ := fun _ => (0 : ℝ))
      (Z := Outside dim N surfaces b) (x₁ := fun i => 1 * g i + T * w i) hdim hA hdef hn continuous_const
      (fun _ => le_rfl) hψ (outside_same hdim hn) (outside_closed _ b)
      (fun r hr hD => by beta_reduce; rw [hw.1 r hr hD]; ring)
      (fun s hs node hnode => by
        rw [atNode_combine, normalComponent_combine]
        have hwn : ∀ i < dim, i * N + node < dim * N := fun i hi => by
          have := hn s hs node hnode
          calc i * N + node < i * N + N := by omega
            _ = (i + 1) * N := by ring
            _ ≤ dim * N := Nat.mul_le_mul_right _ hi
        rcases hw.2 s hs node hnode with h | h
        · have e : normalComponent dim (atNode N w node) s.normal = normalComponent dim (fun _ => 0) s.normal :=
            normalComponent_congr hdim _ fun i hi => hw.1 _ (hwn i hi) (h i hi)
          have e0 : normalComponent dim (fun _ => (0 : ℝ)) s.normal = 0 := by simp [normalComponent]
          rw [e, e0]
          have := hg s hs node hnode h
          linarith
        · have h1 := hbound g _ (fieldSize_nonneg (dim * N) g) (fun r hr => le_fieldSize hr g) hdim s hs node hnode
          have h2 := le_abs_self (normalComponent dim (atNode N g node) s.normal)
          have h3 := mul_le_mul_of_nonneg_left h hT0
          have h4 := neg_abs_le b
          linarith)
    refine ⟨x₀, h₀, fun x₁ h₁ r hr => ?_⟩
    exact least_unique hA hdef (friction_convex hψ)
      (fun y z hy hz t h0 h1 => outside_convex hy hz h0 h1) h₀ h₁ r hr

end exist

section laws

/-- C114. The heat exchange of `BartmanSzwarc_Ochal_Tarzia_2026.py` is `α` times one that attracts to the
level `b`. -/
theorem C114_heat_exchange (b : ℝ) : Attracts b (tarziaPotential 1 b) ∧ Continuous (tarziaPotential 1 b) ∧
    ∀ α, tarziaPotential α b = fun r => α * tarziaPotential 1 b r := by
  refine ⟨⟨?_, fun r => ?_, fun B => ?_⟩, (C96_heat_exchange_wrong 1 b (b + 1) (by simp)).1, fun α => ?_⟩
  · simp [tarziaPotential]
  · unfold tarziaPotential
    split_ifs with h
    · positivity
    · have := Real.log_nonneg (x := r - b + 1) (by linarith)
      linarith
  · set M := |B| + 1 with hM
    have hM1 : 1 ≤ M := by rw [hM]; linarith [abs_nonneg B]
    refine ⟨min 1 (2 / (M * (1 + M))), lt_min one_pos (by positivity), fun r hr => ?_⟩
    unfold tarziaPotential
    rw [mul_one]
    split_ifs with h
    · calc _ ≤ 1 * (r - b) ^ 2 := mul_le_mul_of_nonneg_right (min_le_left _ _) (sq_nonneg _)
        _ = _ := one_mul _
    · set t := r - b with ht
      have ht0 : 0 ≤ t := by rw [ht]; linarith
      have htM : t ≤ M := by
        have := (le_abs_self t).trans (hr.trans (le_abs_self B))
        rw [hM]; linarith
      have h1 := Real.one_sub_inv_le_log_of_pos (x := t + 1) (by linarith)
      have h2 : t / (1 + M) ≤ 1 - (t + 1)⁻¹ := by
        have : 1 - (t + 1)⁻¹ = t / (1 + t) := by
          field_simp
          ring
        rw [this]
        exact div_le_div_of_nonneg_left ht0 (by linarith) (by linarith)
      calc _ ≤ 2 / (M * (1 + M)) * t ^ 2 := mul_le_mul_of_nonneg_right (min_le_right _ _) (sq_nonneg _)
        _ ≤ 2 / (M * (1 + M)) * (M * t) := by
          refine mul_le_mul_of_nonneg_left ?_ (by positivity)
          nlinarith
        _ = 2 * (t / (1 + M)) := by
          have : M ≠ 0 := by linarith
          field_simp
        _ ≤ _ := by linarith
  · funext r
    simp only [tarziaPotential]
    ring

/-- C114. The obstacle of `BartmanSzwarc_Ochal_Sofonea_Tarzia_2025.py` is `ig` times one that repels at the
level `gap`. -/
theorem C114_foundation (gap : ℝ) : Repels gap (bostPotential 1 gap) ∧ Continuous (bostPotential 1 gap) ∧
    ∀ ig, bostPotential ig gap = fun v => ig * bostPotential 1 gap v := by
  have hlow : ∀ v, (1 : ℝ) / 10 ≤ v → 1 / 20 * v ≤ 1 / 10 * v - Real.exp (-v) +
      ((1 / 10 + 2) * Real.exp (-(1 / 10)) - 1 / 10 * (1 / 10)) / 2 := fun v hv => by
    have h1 : Real.exp (-v) ≤ Real.exp (-(1 / 10)) := Real.exp_le_exp.2 (by linarith)
    have h2 := Real.exp_pos (-(1 / 10 : ℝ))
    linarith
  have hmid := Real.exp_pos (-(1 / 10 : ℝ))
  refine ⟨⟨fun r hr => ?_, fun r => ?_, fun B => ?_⟩, ?_, fun α => ?_⟩
  · simp only [bostPotential, if_pos (show r - gap ≤ 0 by linarith), mul_zero]
  · simp only [bostPotential, one_mul]
    split_ifs with h1 h2
    · exact le_rfl
    · positivity
    · have := hlow (r - gap) (by linarith)
      linarith
  · set M := |B - gap| + 1 with hM
    have hM1 : 1 ≤ M := by rw [hM]; linarith [abs_nonneg (B - gap)]
    refine ⟨1 / (20 * M), by positivity, fun r hr hB => ?_⟩
    simp only [bostPotential, one_mul]
    set t := r - gap with ht
    have ht0 : 0 ≤ t := by rw [ht]; linarith
    have htM : t ≤ M := by
      have := le_abs_self (B - gap)
      rw [hM]; linarith
    split_ifs with h1 h2
    · have : t = 0 := le_antisymm h1 ht0
      rw [this]; simp
    · refine mul_le_mul_of_nonneg_right ?_ (sq_nonneg _)
      have : 1 / (20 * M) ≤ 1 := by
        rw [div_le_one (by linarith)]; linarith
      have h3 : (1 : ℝ) / 2 ≤ (1 / 10 + Real.exp (-(1 / 10))) / (2 * (1 / 10)) := by
        rw [le_div_iff₀ (by norm_num)]; linarith
      have : 1 / (20 * M) ≤ 1 / 2 := by
        rw [div_le_div_iff₀ (by linarith) (by norm_num)]; linarith
      linarith
    · refine le_trans ?_ (hlow t (by linarith))
      calc 1 / (20 * M) * t ^ 2 ≤ 1 / (20 * M) * (M * t) :=
            mul_le_mul_of_nonneg_left (by nlinarith) (by positivity)
        _ = 1 / 20 * t := by
          have : M ≠ 0 := by linarith
          field_simp
  · refine continuous_iff_continuousAt.2 fun v => ?_
    exact (C96_exponential 1 gap v).1.continuousAt
  · funext r
    simp only [bostPotential]
    ring

/-- C114. Quadratic obstacles repel. -/
theorem C114_linear : Repels 0 (linearPotential (1 : ℝ)) ∧ Continuous (linearPotential (1 : ℝ)) ∧
    ∀ stiffness : ℝ, linearPotential stiffness = fun v => stiffness * linearPotential 1 v := by
  refine ⟨⟨fun r hr => by simp [linearPotential, hr], fun r => ?_, fun B => ⟨1 / 2, by norm_num, fun r hr _ => ?_⟩⟩, ?_,
    fun k => ?_⟩
  · unfold linearPotential
    split_ifs <;> positivity
  · unfold linearPotential
    split_ifs with h
    · have : r = 0 := le_antisymm h hr
      rw [this]; simp
    · simp
  · unfold linearPotential
    refine Continuous.if_le continuous_const (by fun_prop) continuous_id continuous_const fun x hx => ?_
    rw [show x = 0 from hx]; simp
  · funext v
    unfold linearPotential
    split_ifs <;> ring

theorem range_sum (n : ℕ) (f : ℕ → ℝ) : ((List.range n).map f).sum = ∑ i ∈ Finset.range n, f i :=
  (Multiset.sum_coe _).symm

/-- C114. Friction proportional to the length of the tangential displacement, as in
`BartmanSzwarc_Ochal_Sofonea_Tarzia_2025.py`, in any dimension and for any normals. -/
theorem C114_friction (dim : ℕ) (surfaces : List (Surface ℝ)) (μ : ℝ) (hμ : 0 ≤ μ) :
    Friction dim surfaces fun t => μ * vectorLength t := by
  set T : Surface ℝ → (ℕ → ℝ) → EuclideanSpace ℝ (Fin dim) := fun s y =>
    if dim = 1 then 0 else WithLp.toLp 2 fun i => y i - normalComponent dim y s.normal * s.normal i with hT
  have hlen : ∀ s y, vectorLength (tangentialComponent dim y s.normal) = ‖T s y‖ := by
    intro s y
    rw [hT]; beta_reduce
    unfold vectorLength tangentialComponent
    split_ifs with h
    · simp
    · rw [EuclideanSpace.norm_eq, List.map_map, range_sum, Finset.sum_range]
      congr 1
      refine Finset.sum_congr rfl fun i _ => ?_
      simp [sq_abs]
  have hlin : ∀ s y z (a b : ℝ), T s (fun i => a * y i + b * z i) = a • T s y + b • T s z := by
    intro s y z a b
    rw [hT]; beta_reduce
    split_ifs with h
    · simp
    · ext i
      simp only [PiLp.add_apply, PiLp.smul_apply, smul_eq_mul, normalComponent_combine]
      ring
  refine ⟨fun t => mul_nonneg hμ (Real.sqrt_nonneg _), fun s hs x y a b ha hb hab => ?_, ?_⟩
  · beta_reduce
    rw [hlen, hlen, hlen, hlin]
    have h1 := norm_add_le (a • T s x) (b • T s y)
    rw [norm_smul, norm_smul, Real.norm_of_nonneg ha, Real.norm_of_nonneg hb] at h1
    have := mul_le_mul_of_nonneg_left h1 hμ
    linarith
  · set W : Surface ℝ → ℝ := fun s => 1 + (1 + ∑ i ∈ Finset.range dim, |s.normal i|) * ∑ i ∈ Finset.range dim, |s.normal i|
      with hW
    have hW0 : ∀ s, 0 ≤ W s := fun s => by
      have : 0 ≤ ∑ i ∈ Finset.range dim, |s.normal i| := Finset.sum_nonneg fun _ _ => abs_nonneg _
      rw [hW]; beta_reduce; positivity
    have hsum0 : ∀ a ∈ surfaces.map W, 0 ≤ a := fun a ha => by
      obtain ⟨s, -, rfl⟩ := List.mem_map.1 ha
      exact hW0 s
    refine ⟨μ * (surfaces.map W).sum, mul_nonneg hμ (List.sum_nonneg hsum0), fun s hs y z => ?_⟩
    have hle : W s ≤ (surfaces.map W).sum := List.single_le_sum hsum0 _ (List.mem_map_of_mem hs)
    set A := ∑ i ∈ Finset.range dim, |y i - z i| with hA
    have hA0 : 0 ≤ A := Finset.sum_nonneg fun _ _ => abs_nonneg _
    rw [hlen, hlen]
    have h1 : ‖T s y‖ - ‖T s z‖ ≤ ‖T s fun i => 1 * y i + (-1) * z i‖ := by
      rw [hlin, one_smul, neg_one_smul, ← sub_eq_add_neg]
      exact norm_sub_norm_le _ _
    have h2 : ‖T s fun i => 1 * y i + (-1) * z i‖ ≤ W s * A := by
      have e := hlen s fun i => 1 * y i + (-1) * z i
      refine e.ge.trans ?_
      have hν : |normalComponent dim (fun i => 1 * y i + (-1) * z i) s.normal| ≤
          (1 + ∑ i ∈ Finset.range dim, |s.normal i|) * A ∨ dim = 1 := by
        by_cases h : dim = 1
        · exact Or.inr h
        · left
          unfold normalComponent
          rw [if_neg h]
          refine (Finset.abs_sum_le_sum_abs _ _).trans ?_
          calc ∑ i ∈ Finset.range dim, |(1 * y i + (-1) * z i) * s.normal i| ≤
                ∑ i ∈ Finset.range dim, |s.normal i| * A := by
                refine Finset.sum_le_sum fun i hi => ?_
                rw [abs_mul, mul_comm]
                refine mul_le_mul_of_nonneg_left ?_ (abs_nonneg _)
                have : (1 * y i + (-1) * z i) = y i - z i := by ring
                rw [this]
                exact Finset.single_le_sum (f := fun i => |y i - z i|) (fun _ _ => abs_nonneg _) hi
            _ = (∑ i ∈ Finset.range dim, |s.normal i|) * A := by rw [Finset.sum_mul]
            _ ≤ _ := by nlinarith
      unfold vectorLength tangentialComponent
      rcases hν with hν | h
      · split_ifs with h
        · simp only [List.map_nil, List.sum_nil, Real.sqrt_zero]
          exact mul_nonneg (hW0 s) hA0
        · rw [List.map_map, range_sum]
          refine (Real.sqrt_le_sqrt (Finset.sum_le_sum fun i _ => (sq_abs _).ge)).trans ?_
          refine (Real.sqrt_le_iff.2 ⟨Finset.sum_nonneg fun _ _ => abs_nonneg _,
            Finset.sum_sq_le_sq_sum_of_nonneg fun _ _ => abs_nonneg _⟩).trans ?_
          calc ∑ i ∈ Finset.range dim, |1 * y i + (-1) * z i -
                normalComponent dim (fun i => 1 * y i + (-1) * z i) s.normal * s.normal i| ≤
                ∑ i ∈ Finset.range dim, (|y i - z i| +
                  (1 + ∑ i ∈ Finset.range dim, |s.normal i|) * A * |s.normal i|) := by
                refine Finset.sum_le_sum fun i _ => ?_
                refine (abs_sub _ _).trans (add_le_add (le_of_eq ?_) ?_)
                · congr 1; ring
                · rw [abs_mul]
                  exact mul_le_mul_of_nonneg_right hν (abs_nonneg _)
            _ = W s * A := by
                rw [Finset.sum_add_distrib, ← Finset.mul_sum, hW]
                ring
      · rw [if_pos h]
        simp only [List.map_nil, List.sum_nil, Real.sqrt_zero]
        exact mul_nonneg (hW0 s) hA0
    have h3 := mul_le_mul_of_nonneg_left (h1.trans (h2.trans (mul_le_mul_of_nonneg_right hle hA0))) hμ
    calc μ * ‖T s y‖ - μ * ‖T s z‖ = μ * (‖T s y‖ - ‖T s z‖) := by ring
      _ ≤ _ := h3
      _ = _ := by ring

end laws

end Conmech
