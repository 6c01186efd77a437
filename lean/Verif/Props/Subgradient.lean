import Verif.Lemmas.Subgradient
import Verif.Props.Cost
import Mathlib.Analysis.Calculus.Deriv.Comp
/-!
C49: the subgradient given to the optimisers, and the equation of the direct solver, compared with the
derivative of the cost.
-/
namespace Conmech
open Spec

section
variable {K : Type _} [Field K]

/-- The conditions of a law without friction and with unit bounds: what `make_cost_functional` gets
from such a law. -/
def frictionless (potential : K → K → K → K) : Conditions K :=
  makeConditions (.function potential) unitBound zeroTangential unitBound

/-- The conditions `Optimization.__init__` gives to `make_subgradient`. -/
def subgradientConditions (subderivative : K → K → K → K) : Conditions K :=
  makeConditions (.function subderivative) .missing .missing .missing

theorem density_frictionless (j : K → K → K → K) (dim : ℕ) (n : ℕ → K) (sn : K) (st : List K) (dt : K)
    (x : ℕ → K) : density (frictionless j) dim n sn st dt x = j (normalComponent dim x n) sn dt := by
  simp [density, frictionless, makeConditions, Condition.njit, unitBound, zeroTangential]

theorem density_subgradientConditions (j : K → K → K → K) (dim : ℕ) (n : ℕ → K) (sn : K) (st : List K)
    (dt : K) (x : ℕ → K) :
    density (subgradientConditions j) dim n sn st dt x = j (normalComponent dim x n) sn dt := by
  simp [density, subgradientConditions, makeConditions, Condition.njit]

theorem nodeValue_path (dim n : ℕ) (x h : ℕ → K) (old : Flat K) (t : K) :
    nodeValue dim ⟨n, fun k => x k + t * h k⟩ old =
      fun node i => nodeValue dim ⟨n, x⟩ old node i + t * directionField dim n h node i := by
  funext node i
  unfold directionField nodeValue
  simp only
  split_ifs
  · rfl
  · ring

theorem meanOver_path (edge : List ℕ) (v w : ℕ → ℕ → K) (t : K) :
    meanOver edge (fun node i => v node i + t * w node i) =
      fun i => meanOver edge v i + t * meanOver edge w i := by
  funext i
  unfold meanOver
  rw [sum_map_add', sum_map_mul]
  ring

theorem normalComponent_path (dim : ℕ) (x y n : ℕ → K) (t : K) :
    normalComponent dim (fun i => x i + t * y i) n =
      normalComponent dim x n + t * normalComponent dim y n := by
  unfold normalComponent
  split_ifs
  · rfl
  · rw [Finset.mul_sum, ← Finset.sum_add_distrib]
    exact Finset.sum_congr rfl fun i _ => by ring

/-- The derivative of the contact cost of one surface in direction `h`: every sample is paired with the
value of the direction at that sample. `dj` is the derivative of the potential. -/
def surfaceDerivative (sqrt : K → K) (dj : K → K → K → K) (d : ContactData K) (var : Flat K)
    (h : ℕ → K) (s : Surface K) : K :=
  let field := nodeValue d.variableDimension var d.old
  let direction := directionField d.variableDimension var.size h
  let slope := fun x : ℕ → K => dj (normalComponent d.variableDimension x s.normal) (staticN d s) d.dt
  surfaceLength sqrt d.nodes s.edge / ((s.edge.length + 1 : ℕ) : K) *
    (slope (meanOver s.edge field) *
        normalComponent d.variableDimension (meanOver s.edge direction) s.normal +
      (s.edge.map fun node =>
        slope (field node) * normalComponent d.variableDimension (direction node) s.normal).sum)

/-- The normal components of the field at the nodes of a surface. -/
def nodePoints (d : ContactData K) (var : Flat K) (s : Surface K) : List K :=
  s.edge.map fun node =>
    normalComponent d.variableDimension (nodeValue d.variableDimension var d.old node) s.normal

/-- All points at which the law is sampled on a surface: the mean and the nodes. -/
def samplePoints (d : ContactData K) (var : Flat K) (s : Surface K) : List K :=
  normalComponent d.variableDimension
      (meanOver s.edge (nodeValue d.variableDimension var d.old)) s.normal :: nodePoints d var s

end

theorem hasDerivAt_list_sum {β : Type _} (l : List β) (f : β → ℝ → ℝ) (f' : β → ℝ) (t : ℝ)
    (h : ∀ b ∈ l, HasDerivAt (f b) (f' b) t) :
    HasDerivAt (fun t => (l.map fun b => f b t).sum) (l.map f').sum t := by
  induction l with
  | nil => simpa using hasDerivAt_const t (0 : ℝ)
  | cons b l ih =>
    simp only [List.map_cons, List.sum_cons]
    exact (h b List.mem_cons_self).add (ih fun b hb => h b (List.mem_cons_of_mem _ hb))

theorem hasDerivAt_potential (j dj : ℝ → ℝ → ℝ → ℝ) (sn dt a b : ℝ)
    (hj : HasDerivAt (fun x => j x sn dt) (dj a sn dt) a) :
    HasDerivAt (fun t => j (a + t * b) sn dt) (dj a sn dt * b) 0 := by
  have h1 : HasDerivAt (fun t : ℝ => a + t * b) b 0 := by
    simpa using ((hasDerivAt_id (0 : ℝ)).mul_const b).const_add a
  have h2 : HasDerivAt (fun x => j x sn dt) (dj a sn dt) (a + 0 * b) := by simpa using hj
  exact HasDerivAt.comp (0 : ℝ) h2 h1

/-- C49. The derivative of the contact cost in an arbitrary direction, for a law without friction and
with unit bounds that is differentiable at the samples. -/
theorem C49_contact_derivative (j dj : ℝ → ℝ → ℝ → ℝ) (d : ContactData ℝ) (n : ℕ) (x h : ℕ → ℝ)
    (hj : ∀ s ∈ d.surfaces, ∀ a ∈ samplePoints d ⟨n, x⟩ s,
      HasDerivAt (fun y => j y (staticN d s) d.dt) (dj a (staticN d s) d.dt) a) :
    HasDerivAt (fun t => contactCostFunctional Real.sqrt (frictionless j) d ⟨n, fun k => x k + t * h k⟩)
      (d.surfaces.map (surfaceDerivative Real.sqrt dj d ⟨n, x⟩ h)).sum 0 := by
  simp only [contactCostFunctional_eq]
  refine hasDerivAt_list_sum _ _ _ _ fun s hs => ?_
  unfold surfaceCost quadrature surfaceDerivative
  simp only [density_frictionless, nodeValue_path, meanOver_path, normalComponent_path]
  refine HasDerivAt.const_mul _ ?_
  refine HasDerivAt.add ?_ ?_
  · exact hasDerivAt_potential j dj _ _ _ _ (hj s hs _ List.mem_cons_self)
  · refine hasDerivAt_list_sum _ _ _ _ fun node hnode => ?_
    exact hasDerivAt_potential j dj _ _ _ _
      (hj s hs _ (List.mem_cons_of_mem _ (List.mem_map.2 ⟨node, hnode, rfl⟩)))

theorem hasDerivAt_energy (n : ℕ) (S : System ℝ) (hA : ∀ r < n, ∀ s < n, S.lhs r s = S.lhs s r)
    (x h : ℕ → ℝ) :
    HasDerivAt (fun t => energy n S fun k => x k + t * h k)
      (dot n (fun r => ∑ s ∈ Finset.range n, S.lhs r s * x s - S.rhs r) h) 0 := by
  have key : ∀ t : ℝ, energy n S (fun k => x k + t * h k) = energy n S x +
      t * dot n (fun r => ∑ s ∈ Finset.range n, S.lhs r s * x s - S.rhs r) h +
      t ^ 2 * (1 / 2 * quad n S.lhs h) := fun t => by
    rw [energy_expand n S hA x fun k => t * h k]
    have h1 : quad n S.lhs (fun k => t * h k) = t ^ 2 * quad n S.lhs h := by
      simp only [quad_eq_bilin]
      rw [bilin_smul_left, bilin_smul_right]; ring
    rw [h1]
    unfold dot
    rw [Finset.mul_sum]
    congr 1
    · congr 1
      exact Finset.sum_congr rfl fun r _ => by ring
    · ring
  have h1 := ((hasDerivAt_const (0 : ℝ) (energy n S x)).add ((hasDerivAt_id (0 : ℝ)).mul_const
    (dot n (fun r => ∑ s ∈ Finset.range n, S.lhs r s * x s - S.rhs r) h))).add
    ((hasDerivAt_pow 2 (0 : ℝ)).mul_const (1 / 2 * quad n S.lhs h))
  have h2 := h1.congr_deriv (g' := dot n (fun r => ∑ s ∈ Finset.range n, S.lhs r s * x s - S.rhs r) h)
    (by norm_num)
  refine h2.congr_of_eventuallyEq (Filter.Eventually.of_forall fun t => ?_)
  simp only [key t]
  rfl

/-- C49. The derivative of the total cost of a symmetric system in an arbitrary direction. -/
theorem C49_derivative (j dj : ℝ → ℝ → ℝ → ℝ) (d : ContactData ℝ) (n : ℕ) (S : System ℝ)
    (hA : ∀ r < n, ∀ s < n, S.lhs r s = S.lhs s r) (x h : ℕ → ℝ)
    (hj : ∀ s ∈ d.surfaces, ∀ a ∈ samplePoints d ⟨n, x⟩ s,
      HasDerivAt (fun y => j y (staticN d s) d.dt) (dj a (staticN d s) d.dt) a) :
    HasDerivAt (fun t => costFunctional Real.sqrt (frictionless j) d n S.lhs S.rhs
        ⟨n, fun k => x k + t * h k⟩)
      (dot n (fun r => ∑ s ∈ Finset.range n, S.lhs r s * x s - S.rhs r) h +
        (d.surfaces.map (surfaceDerivative Real.sqrt dj d ⟨n, x⟩ h)).sum) 0 := by
  simp only [C48_energy]
  exact (hasDerivAt_energy n S hA x h).add (C49_contact_derivative j dj d n x h hj)

section
variable {K : Type _} [Field K]

theorem surfaceCost_subgradient (sqrt : K → K) (dj : K → K → K → K) (d : ContactData K) (var : Flat K)
    (s : Surface K) :
    surfaceCost sqrt (subgradientConditions dj) d var s =
      surfaceLength sqrt d.nodes s.edge / ((s.edge.length + 1 : ℕ) : K) *
        (dj (normalComponent d.variableDimension
            (meanOver s.edge (nodeValue d.variableDimension var d.old)) s.normal) (staticN d s) d.dt +
          (s.edge.map fun node => dj (normalComponent d.variableDimension
            (nodeValue d.variableDimension var d.old node) s.normal) (staticN d s) d.dt).sum) := by
  unfold surfaceCost quadrature
  simp only [density_subgradientConditions]

theorem dot_subgradient (sqrt : K → K) (c : Conditions K) (d : ContactData K) (n : ℕ) (S : System K)
    (x h : ℕ → K) :
    dot n (subgradientFunctional sqrt c d false n S.lhs S.rhs ⟨n, x⟩) h =
      dot n (fun r => ∑ s ∈ Finset.range n, S.lhs r s * x s - S.rhs r) h +
        dot n (contactSubgradient sqrt c d ⟨n, x⟩) h := by
  unfold dot
  rw [← Finset.sum_add_distrib]
  refine Finset.sum_congr rfl fun k hk => ?_
  unfold subgradientFunctional
  simp only [if_pos (Finset.mem_range.1 hk), Bool.false_eq_true, if_false]
  ring

/-- C49. The entries of the subgradient after the unknowns of the system are zero. -/
theorem C49_beyond (sqrt : K → K) (c : Conditions K) (d : ContactData K) (onlyBoundary : Bool) (n : ℕ)
    (S : System K) (var : Flat K) (k : ℕ) (hk : n ≤ k) :
    subgradientFunctional sqrt c d onlyBoundary n S.lhs S.rhs var k = 0 := by
  simp [subgradientFunctional, Nat.not_lt.mpr hk]

/-- Where the direction has the same normal component at all nodes of a surface, the subgradient of
that surface is exact. -/
theorem surface_rigid (sqrt : K → K) (dj : K → K → K → K) (d : ContactData K) (var : Flat K)
    (h : ℕ → K) (s : Surface K) (hd : d.variableDimension ≠ 1) (value : K)
    (hmean : normalComponent d.variableDimension
      (meanOver s.edge (directionField d.variableDimension var.size h)) s.normal = value)
    (hrigid : ∀ node ∈ s.edge, normalComponent d.variableDimension
      (directionField d.variableDimension var.size h node) s.normal = value) :
    surfaceCost sqrt (subgradientConditions dj) d var s * ∑ i ∈ Finset.range d.variableDimension,
        meanOver s.edge (directionField d.variableDimension var.size h) i * s.normal i =
      surfaceDerivative sqrt dj d var h s := by
  have h1 : ∑ i ∈ Finset.range d.variableDimension,
      meanOver s.edge (directionField d.variableDimension var.size h) i * s.normal i = value := by
    rw [← hmean]; unfold normalComponent; rw [if_neg hd]
  rw [h1, surfaceCost_subgradient]
  unfold surfaceDerivative
  simp only [hmean]
  have h2 : (s.edge.map fun node => dj (normalComponent d.variableDimension
      (nodeValue d.variableDimension var d.old node) s.normal) (staticN d s) d.dt *
      normalComponent d.variableDimension
        (directionField d.variableDimension var.size h node) s.normal) =
      s.edge.map fun node => value * dj (normalComponent d.variableDimension
        (nodeValue d.variableDimension var d.old node) s.normal) (staticN d s) d.dt :=
    List.map_congr_left fun node hnode => by rw [hrigid node hnode, mul_comm]
  rw [h2, sum_map_mul]
  ring

theorem normalComponent_mean [CharZero K] (dim : ℕ) (edge : List ℕ) (v : ℕ → ℕ → K) (m : ℕ → K) :
    normalComponent dim (meanOver edge v) m =
      (edge.map fun node => normalComponent dim (v node) m).sum / (edge.length : K) := by
  unfold normalComponent meanOver
  split_ifs
  · rfl
  · have := sum_swap edge dim v (edge.length : K) m
    rw [← this, ← sum_map_div]
    congr 1
    refine List.map_congr_left fun node _ => ?_
    rw [Finset.sum_div]
    exact Finset.sum_congr rfl fun i _ => by ring

/-- Where the slope of the law is the same at all nodes of a surface, the subgradient of that surface
is exact. -/
theorem surface_uniform [CharZero K] (sqrt : K → K) (dj : K → K → K → K) (d : ContactData K)
    (var : Flat K) (h : ℕ → K) (s : Surface K) (hd : d.variableDimension ≠ 1) (slope : K)
    (he : s.edge ≠ [])
    (hnodes : ∀ node ∈ s.edge, dj (normalComponent d.variableDimension
      (nodeValue d.variableDimension var d.old node) s.normal) (staticN d s) d.dt = slope) :
    surfaceCost sqrt (subgradientConditions dj) d var s * ∑ i ∈ Finset.range d.variableDimension,
        meanOver s.edge (directionField d.variableDimension var.size h) i * s.normal i =
      surfaceDerivative sqrt dj d var h s := by
  have h1 : ∑ i ∈ Finset.range d.variableDimension,
      meanOver s.edge (directionField d.variableDimension var.size h) i * s.normal i =
      normalComponent d.variableDimension
        (meanOver s.edge (directionField d.variableDimension var.size h)) s.normal := by
    unfold normalComponent; rw [if_neg hd]
  have hL : (s.edge.length : K) ≠ 0 := by
    exact_mod_cast fun h => he (List.length_eq_zero_iff.1 h)
  rw [h1, surfaceCost_subgradient]
  unfold surfaceDerivative
  simp only
  have h2 : (s.edge.map fun node => dj (normalComponent d.variableDimension
      (nodeValue d.variableDimension var d.old node) s.normal) (staticN d s) d.dt *
      normalComponent d.variableDimension
        (directionField d.variableDimension var.size h node) s.normal) =
      s.edge.map fun node => slope * normalComponent d.variableDimension
        (directionField d.variableDimension var.size h node) s.normal :=
    List.map_congr_left fun node hnode => by rw [hnodes node hnode]
  rw [List.map_congr_left hnodes, sum_map_const, h2, sum_map_mul,
    normalComponent_mean d.variableDimension s.edge (directionField d.variableDimension var.size h)]
  field_simp

end

/-- C49. In every direction with the same normal component at all nodes of each contact surface, for
example for a common translation of the body, the subgradient gives the derivative of the cost: the
total contact force of every surface is right. -/
theorem C49_translation_partial (j dj : ℝ → ℝ → ℝ → ℝ) (d : ContactData ℝ) (hd : d.variableDimension ≠ 1)
    (n : ℕ) (S : System ℝ) (hA : ∀ r < n, ∀ s < n, S.lhs r s = S.lhs s r) (x h : ℕ → ℝ)
    (hj : ∀ s ∈ d.surfaces, ∀ a ∈ samplePoints d ⟨n, x⟩ s,
      HasDerivAt (fun y => j y (staticN d s) d.dt) (dj a (staticN d s) d.dt) a)
    (he : ∀ s ∈ d.surfaces, s.edge ≠ [])
    (hh : ∀ s ∈ d.surfaces, ∃ value, ∀ node ∈ s.edge, normalComponent d.variableDimension
      (directionField d.variableDimension n h node) s.normal = value) :
    HasDerivAt (fun t => costFunctional Real.sqrt (frictionless j) d n S.lhs S.rhs
        ⟨n, fun k => x k + t * h k⟩)
      (dot n (subgradientFunctional Real.sqrt (subgradientConditions dj) d false n S.lhs S.rhs ⟨n, x⟩) h)
      0 := by
  refine (C49_derivative j dj d n S hA x h hj).congr_deriv ?_
  rw [dot_subgradient, dot_contactSubgradient Real.sqrt _ d ⟨n, x⟩ h]
  congr 2
  refine List.map_congr_left fun s hs => ?_
  obtain ⟨value, hvalue⟩ := hh s hs
  refine (surface_rigid Real.sqrt dj d ⟨n, x⟩ h s hd value ?_ hvalue).symm
  rw [normalComponent_mean, List.map_congr_left hvalue, sum_map_const]
  have hL : (s.edge.length : ℝ) ≠ 0 := by
    exact_mod_cast fun h => he s hs (List.length_eq_zero_iff.1 h)
  field_simp

/-- C49. Where the slope of the law is the same at all nodes of each surface (for example: where
there is no contact, or for a law of constant resistance under contact) the subgradient is the
gradient of the cost: it gives the derivative in every direction. -/
theorem C49_uniform_partial (j dj : ℝ → ℝ → ℝ → ℝ) (d : ContactData ℝ) (hd : d.variableDimension ≠ 1)
    (n : ℕ) (S : System ℝ) (hA : ∀ r < n, ∀ s < n, S.lhs r s = S.lhs s r) (x h : ℕ → ℝ)
    (hj : ∀ s ∈ d.surfaces, ∀ a ∈ samplePoints d ⟨n, x⟩ s,
      HasDerivAt (fun y => j y (staticN d s) d.dt) (dj a (staticN d s) d.dt) a)
    (he : ∀ s ∈ d.surfaces, s.edge ≠ [])
    (hs : ∀ s ∈ d.surfaces, ∃ slope, ∀ a ∈ nodePoints d ⟨n, x⟩ s, dj a (staticN d s) d.dt = slope) :
    HasDerivAt (fun t => costFunctional Real.sqrt (frictionless j) d n S.lhs S.rhs
        ⟨n, fun k => x k + t * h k⟩)
      (dot n (subgradientFunctional Real.sqrt (subgradientConditions dj) d false n S.lhs S.rhs ⟨n, x⟩) h)
      0 := by
  refine (C49_derivative j dj d n S hA x h hj).congr_deriv ?_
  rw [dot_subgradient, dot_contactSubgradient Real.sqrt _ d ⟨n, x⟩ h]
  congr 2
  refine List.map_congr_left fun s hmem => ?_
  obtain ⟨slope, hslope⟩ := hs s hmem
  exact (surface_uniform Real.sqrt dj d ⟨n, x⟩ h s hd slope (he s hmem)
    (fun node hnode => hslope _ (List.mem_map.2 ⟨node, hnode, rfl⟩))).symm

section
variable {K : Type _} [Field K]

/-- C49. On a segment with two nodes the derivative and what the subgradient says differ by
`length / 6` times the difference of the slopes times the difference of the directions at the two
nodes. -/
theorem C49_gap [CharZero K] (sqrt : K → K) (dj : K → K → K → K) (d : ContactData K) (var : Flat K)
    (h : ℕ → K) (a b : ℕ) (normal : ℕ → K) (hd : d.variableDimension ≠ 1) :
    let s : Surface K := ⟨[a, b], normal⟩
    let slope := fun node => dj (normalComponent d.variableDimension
      (nodeValue d.variableDimension var d.old node) normal) (staticN d s) d.dt
    let direction := fun node => normalComponent d.variableDimension
      (directionField d.variableDimension var.size h node) normal
    surfaceDerivative sqrt dj d var h s =
      surfaceCost sqrt (subgradientConditions dj) d var s * (∑ i ∈ Finset.range d.variableDimension,
        meanOver s.edge (directionField d.variableDimension var.size h) i * s.normal i) +
      surfaceLength sqrt d.nodes [a, b] / 6 * ((slope a - slope b) * (direction a - direction b)) := by
  intro s slope direction
  have h1 : ∑ i ∈ Finset.range d.variableDimension,
      meanOver s.edge (directionField d.variableDimension var.size h) i * s.normal i =
      normalComponent d.variableDimension
        (meanOver s.edge (directionField d.variableDimension var.size h)) normal := by
    unfold normalComponent; rw [if_neg hd]
  have h2 : normalComponent d.variableDimension
      (meanOver [a, b] (directionField d.variableDimension var.size h)) normal =
      (direction a + direction b) / 2 := by
    rw [normalComponent_mean]; simp [direction]
  rw [h1, surfaceCost_subgradient]
  unfold surfaceDerivative
  simp only [s, h2, List.map_cons, List.map_nil, List.sum_cons, List.sum_nil, List.length_cons,
    List.length_nil, add_zero]
  change surfaceLength sqrt d.nodes [a, b] / _ * (_ * ((direction a + direction b) / 2) +
    (slope a * direction a + slope b * direction b)) = surfaceLength sqrt d.nodes [a, b] / _ *
    (_ + (slope a + slope b)) * ((direction a + direction b) / 2) + _
  push_cast
  have h3 : ((0 : K) + 1 + 1 + 1) ≠ 0 := by norm_num
  have h6 : (6 : K) ≠ 0 := by norm_num
  field_simp
  ring

end

/-- C49, violated. Whenever the law has different slopes at the two nodes of a contact segment (of
positive length, both nodes being unknowns) there is a direction in which the subgradient is not the
derivative of the cost. -/
theorem C49_segment_wrong (j dj : ℝ → ℝ → ℝ → ℝ) (d : ContactData ℝ) (hd : 1 < d.variableDimension)
    (n : ℕ) (S : System ℝ) (hA : ∀ r < n, ∀ s < n, S.lhs r s = S.lhs s r) (x : ℕ → ℝ)
    (a b : ℕ) (normal : ℕ → ℝ) (hsurf : d.surfaces = [⟨[a, b], normal⟩]) (hab : a ≠ b)
    (ha : a < n / d.variableDimension)
    (hlen : surfaceLength Real.sqrt d.nodes [a, b] ≠ 0)
    (i : ℕ) (hi : i < d.variableDimension) (hni : normal i ≠ 0)
    (hj : ∀ p ∈ samplePoints d ⟨n, x⟩ ⟨[a, b], normal⟩, HasDerivAt
      (fun y => j y (staticN d ⟨[a, b], normal⟩) d.dt) (dj p (staticN d ⟨[a, b], normal⟩) d.dt) p)
    (hne : dj (normalComponent d.variableDimension
        (nodeValue d.variableDimension ⟨n, x⟩ d.old a) normal) (staticN d ⟨[a, b], normal⟩) d.dt ≠
      dj (normalComponent d.variableDimension
        (nodeValue d.variableDimension ⟨n, x⟩ d.old b) normal) (staticN d ⟨[a, b], normal⟩) d.dt) :
    ∃ h : ℕ → ℝ, ¬ HasDerivAt (fun t => costFunctional Real.sqrt (frictionless j) d n S.lhs S.rhs
        ⟨n, fun k => x k + t * h k⟩)
      (dot n (subgradientFunctional Real.sqrt (subgradientConditions dj) d false n S.lhs S.rhs ⟨n, x⟩) h)
      0 := by
  set dim := d.variableDimension with hdim
  let h : ℕ → ℝ := fun k => if k = i * (n / dim) + a then 1 else 0
  refine ⟨h, fun hder => ?_⟩
  have h1 := C49_derivative j dj d n S hA x h (by
    intro s hs
    rw [hsurf, List.mem_singleton] at hs
    rw [hs]; exact hj)
  have h2 := h1.unique hder
  rw [dot_subgradient, dot_contactSubgradient Real.sqrt _ d ⟨n, x⟩ h, hsurf] at h2
  simp only [List.map_cons, List.map_nil, List.sum_cons, List.sum_nil, add_zero] at h2
  have h3 := C49_gap Real.sqrt dj d ⟨n, x⟩ h a b normal (by omega)
  simp only at h3
  have h4 := add_left_cancel h2
  rw [h3] at h4
  have h5 := (add_eq_left).1 h4
  have hda : ∀ i', i' < dim → directionField dim n h a i' = if i' = i then 1 else 0 := by
    intro i' hi'
    unfold directionField nodeValue
    simp only [if_pos ha, h]
    by_cases hii : i' = i
    · simp [hii]
    · rw [if_neg hii, if_neg]
      intro he
      have : i' * (n / dim) = i * (n / dim) := by omega
      exact hii (Nat.eq_of_mul_eq_mul_right (by omega) this)
  have hdb : ∀ i', i' < dim → directionField dim n h b i' = 0 := by
    intro i' hi'
    unfold directionField nodeValue
    simp only [h]
    split_ifs with hb he
    · exfalso
      have e1 := congrArg (· % (n / dim)) he
      simp only [Nat.mul_add_mod_self_right, Nat.mod_eq_of_lt ha, Nat.mod_eq_of_lt hb] at e1
      exact hab e1.symm
    · rfl
    · rfl
  have hna : normalComponent dim (directionField dim n h a) normal = normal i := by
    unfold normalComponent
    rw [if_neg (by omega), Finset.sum_congr rfl fun i' hi' => by
      rw [hda i' (Finset.mem_range.1 hi')]]
    simp [hi]
  have hnb : normalComponent dim (directionField dim n h b) normal = 0 := by
    unfold normalComponent
    rw [if_neg (by omega), Finset.sum_congr rfl fun i' hi' => by
      rw [hdb i' (Finset.mem_range.1 hi')]]
    simp
  rw [hna, hnb, sub_zero] at h5
  have : surfaceLength Real.sqrt d.nodes [a, b] / 6 ≠ 0 := div_ne_zero hlen (by norm_num)
  exact mul_ne_zero this (mul_ne_zero (sub_ne_zero.2 hne) hni) h5

/-- One contact edge of length one with normal (0, -1), nothing moves. -/
noncomputable def segmentData (dimension : ℕ) : ContactData ℝ where
  variableDimension := dimension
  problemDimension := dimension
  meshDimension := 2
  nodes := fun node i => if node = 1 ∧ i = 0 then 1 else 0
  surfaces := [⟨[0, 1], fun i => if i = 1 then -1 else 0⟩]
  old := ⟨4, fun _ => 0⟩
  staticDisplacement := ⟨4, fun _ => 0⟩
  dt := 1

theorem segment_length (dimension : ℕ) :
    surfaceLength Real.sqrt (segmentData dimension).nodes [0, 1] = 1 := by
  simp [surfaceLength, segmentData]

/-- The hypotheses of `C49_segment_wrong` for a slope law, with penetrations one and two at the two
nodes. -/
example :
    (∀ p, HasDerivAt (fun y => slopePotential 1 y (staticN (segmentData 2) ⟨[0, 1], fun i =>
      if i = 1 then -1 else 0⟩) 1) (slopeSubderivative 1 p (staticN (segmentData 2) ⟨[0, 1], fun i =>
      if i = 1 then -1 else 0⟩) 1) p) ∧
    surfaceLength Real.sqrt (segmentData 2).nodes [0, 1] ≠ 0 ∧
    normalComponent 2 (nodeValue 2 ⟨4, fun k => if k = 2 then -1 else if k = 3 then -2 else 0⟩
      (segmentData 2).old 0) (fun i => if i = 1 then -1 else (0 : ℝ)) = 1 ∧
    normalComponent 2 (nodeValue 2 ⟨4, fun k => if k = 2 then -1 else if k = 3 then -2 else 0⟩
      (segmentData 2).old 1) (fun i => if i = 1 then -1 else (0 : ℝ)) = 2 ∧
    slopeSubderivative (1 : ℝ) 1 0 1 ≠ slopeSubderivative 1 2 0 1 := by
  refine ⟨fun p => C47_derivative 1 _ 1 p, by rw [segment_length]; norm_num, ?_, ?_, ?_⟩
  · simp [normalComponent, nodeValue, Finset.sum_range_succ]
  · simp [normalComponent, nodeValue, Finset.sum_range_succ]
  · norm_num [slopeSubderivative]

/-- The hypotheses of `C49_uniform_partial` and `C49_translation_partial`: a common penetration. -/
example : (∃ slope, ∀ a ∈ nodePoints (segmentData 2) ⟨4, fun k => if 2 ≤ k then -3 else 0⟩
      ⟨[0, 1], fun i => if i = 1 then -1 else 0⟩, slopeSubderivative 1 a 0 1 = slope) ∧
    (∃ value, ∀ node ∈ [0, 1], normalComponent 2 (directionField 2 4 (fun _ => (5 : ℝ)) node)
      (fun i => if i = 1 then -1 else 0) = value) := by
  refine ⟨⟨3, ?_⟩, ⟨-5, ?_⟩⟩
  · simp [nodePoints, normalComponent, nodeValue, Finset.sum_range_succ, segmentData,
      slopeSubderivative]
  · simp [directionField, normalComponent, nodeValue, Finset.sum_range_succ]

/-- C49, violated. `Optimization.__init__` builds the subgradient for vector fields even if the problem
is scalar. On a segment with normal (0, -1) and a scalar field of value one at both nodes, the
derivative of the contact cost of a slope law with respect to the first unknown is one half, but the
contact part of the subgradient vanishes. -/
theorem C49_scalar_wrong :
    HasDerivAt (fun t => contactCostFunctional Real.sqrt (frictionless (slopePotential 1))
      (segmentData 1) ⟨2, fun k => 1 + t * if k = 0 then 1 else 0⟩) (1 / 2) 0 ∧
    ∀ k, contactSubgradient Real.sqrt (subgradientConditions (slopeSubderivative 1))
      (segmentData 2) ⟨2, fun _ => 1⟩ k = 0 := by
  constructor
  · refine (C49_contact_derivative (slopePotential 1) (slopeSubderivative 1) (segmentData 1) 2
      (fun _ => 1) (fun k => if k = 0 then 1 else 0) fun s _ a _ => C47_derivative 1 _ _ a).congr_deriv ?_
    have hl := segment_length 1
    simp only [segmentData] at hl
    simp [segmentData, surfaceDerivative, hl, normalComponent, nodeValue, directionField, meanOver,
      slopeSubderivative]
    norm_num
  · intro k
    simp [contactSubgradient, segmentData, getNodes, nodeValue, sampleCost, normalPart,
      Finset.sum_range_succ, distribute, addAt, subgradientConditions, makeConditions,
      Condition.njit, slopeSubderivative, contactCost, List.range_succ]

section
variable {K : Type _} [Field K]

/-- C49. For segments in the plane and a law that depends on the penetration only, the direct solver
looks for a zero of the very same vector as the subgradient. -/
theorem C49_equation (sqrt : K → K) (jn : K → K → K → K) (hjn : ∀ p a b, jn p a b = jn p 0 0)
    (d : ContactData K) (hd : d.variableDimension = 2) (S : System K) (var : Flat K)
    (hold : d.old = var) (he : ∀ s ∈ d.surfaces, ∃ a b, s.edge = [a, b]) (k : ℕ) (hk : k < var.size) :
    directEquation sqrt jn 2 d.nodes d.surfaces S.lhs S.rhs var k =
      subgradientFunctional sqrt (subgradientConditions jn) d false var.size S.lhs S.rhs var k := by
  have key : contactPart sqrt jn 2 d.nodes d.surfaces var =
      contactSubgradient sqrt (subgradientConditions jn) d var := by
    unfold contactPart contactSubgradient
    simp only
    rw [hd, hold]
    generalize hinit : (fun _ : ℕ => (0 : K)) = init
    clear hinit
    have : ∀ l : List (Surface K), (∀ s ∈ l, ∃ a b, s.edge = [a, b]) → ∀ init : ℕ → K,
        l.foldl (fun contact s => (getNodes s.edge var var 2).foldl (fun contact um =>
          let umNormal := ∑ i ∈ Finset.range 2, um i * s.normal i
          let edgeLen := surfaceLength sqrt d.nodes s.edge /
            ((getNodes s.edge var var 2).length : K)
          let jx := edgeLen * (1 / 2) * (jn umNormal 0 0 * s.normal 0)
          let jy := edgeLen * (1 / 2) * (jn umNormal 0 0 * s.normal 1)
          let contact := if s.edge.getD 0 0 < var.size / 2 then
            addAt (addAt contact (s.edge.getD 0 0) jx) (s.edge.getD 0 0 + var.size / 2) jy else contact
          if s.edge.getD 1 0 < var.size / 2 then
            addAt (addAt contact (s.edge.getD 1 0) jx) (s.edge.getD 1 0 + var.size / 2) jy else contact)
          contact) init =
        l.foldl (fun cost s => (getNodes s.edge var var 2).foldl (fun cost vm =>
          distribute (var.size / 2) 2 s (sampleCost sqrt (subgradientConditions jn) d s
            (getNodes s.edge var var 2).length vm) cost) cost) init := by
      intro l hl
      induction l with
      | nil => intro init; rfl
      | cons s l ih =>
        intro init
        rw [List.foldl_cons, List.foldl_cons, ih fun s hs => hl s (List.mem_cons_of_mem _ hs)]
        congr 1
        obtain ⟨a, b, hab⟩ := hl s List.mem_cons_self
        congr 1
        funext contact um
        have hs : sampleCost sqrt (subgradientConditions jn) d s
            (getNodes s.edge var var 2).length um =
            surfaceLength sqrt d.nodes s.edge / ((getNodes s.edge var var 2).length : K) *
              jn (∑ i ∈ Finset.range 2, um i * s.normal i) 0 0 := by
          rw [sampleCost_eq, density_subgradientConditions, hjn, hd]
          rfl
        rw [hs]
        have hlen : (s.edge.length : K) = 2 := by rw [hab]; norm_num
        simp only [distribute, hlen]
        rw [hab]
        simp only [List.getD_cons_zero, List.getD_cons_succ, List.foldl_cons, List.foldl_nil,
          List.range_succ, List.range_zero, List.nil_append, List.cons_append, zero_mul, zero_add,
          one_mul, add_comm (var.size / 2)]
        have hx : ∀ (e J m : K), e * (1 / 2) * (J * m) = m / 2 * (e * J) := fun e J m => by ring
        simp only [hx]
        split_ifs <;> rfl
    exact this d.surfaces he init
  unfold directEquation subgradientFunctional
  rw [key, if_pos hk]
  simp only [Bool.false_eq_true, if_false]
  ring

end

example : (∀ p a b : ℚ, slopeSubderivative 10 p a b = slopeSubderivative 10 p 0 0) ∧
    (∀ s ∈ (segmentData 2).surfaces, ∃ a b, s.edge = [a, b]) := by
  refine ⟨fun p a b => rfl, ?_⟩
  simp [segmentData]

end Conmech
