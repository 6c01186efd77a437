import Verif.Model.Manufactured
import Verif.Spec.Manufactured
import Verif.Props.MassStiffness
import Verif.Props.Recovery
import Mathlib.Analysis.Calculus.Deriv.Pow
import Mathlib.Analysis.Calculus.Deriv.Add
import Mathlib.Analysis.Calculus.Deriv.Mul
import Mathlib.Analysis.SpecialFunctions.Sqrt
import Mathlib.Tactic.LinearCombination
/-!
C97: the manufactured solution and the error norms of the examples.
-/
namespace Conmech
open Spec

/-! ### The manufactured solution -/

/-- The gradient of the manufactured solution. -/
noncomputable def mmsGradient (alpha : ℝ) (a k : ℕ) (x y : ℝ) : ℝ :=
  if a = 0 then if k = 0 then alpha * (2 * y + y ^ 2) else alpha * (2 * x + 2 * x * y)
  else if k = 0 then -alpha * (2 * x) * (1 + y) else -alpha * x ^ 2

theorem mms_gradient (alpha : ℝ) : HasGradient (fun x y => (mmsSolution alpha x y).1)
    (fun x y => (mmsSolution alpha x y).2) (mmsGradient alpha) := by
  intro x y
  refine ⟨?_, ?_, ?_, ?_⟩
  · refine (((((hasDerivAt_id x).const_mul 2).mul_const y).add
      ((hasDerivAt_id x).mul_const (y ^ 2))).const_mul alpha).congr_deriv ?_
    simp [mmsGradient]
  · refine ((((hasDerivAt_id y).const_mul (2 * x)).add
      ((hasDerivAt_pow 2 y).const_mul x)).const_mul alpha).congr_deriv ?_
    simp [mmsGradient]; left; ring
  · refine (((hasDerivAt_pow 2 x).const_mul (-alpha)).mul_const (1 + y)).congr_deriv ?_
    simp [mmsGradient]
  · refine (((hasDerivAt_id y).const_add 1).const_mul (-alpha * x ^ 2)).congr_deriv ?_
    simp [mmsGradient]

/-- C97: the manufactured solution solves the boundary value problem of the example in the strong form,
for every amplitude and material: the stresses of its gradient balance `inner_forces`, it vanishes on the
clamped edge, the traction on the right and upper edge is `outer_forces` up to `1/1000` before the corner,
where it is the mean of both, and on the contact edge the law of the example gives the normal traction and
there is no tangential one. -/
theorem C97_manufactured (lam mu alpha : ℝ) (ha : 0 ≤ alpha) :
    let u := mmsSolution alpha
    ∃ g, HasGradient (fun x y => (u x y).1) (fun x y => (u x y).2) g ∧
    let σ := hookeField lam mu g
    Equilibrium σ (mmsInner lam alpha) ∧
    (∀ y, u 0 y = 0) ∧
    (∀ y, y ≤ 1 - 1 / 1000 → mmsOuter lam mu alpha 2 y = traction σ (1, 0) 2 y) ∧
    (∀ x, x ≤ 2 - 1 / 1000 → mmsOuter lam mu alpha x 1 = traction σ (0, 1) x 1) ∧
    mmsOuter lam mu alpha 2 1 =
      (((traction σ (1, 0) 2 1).1 + (traction σ (0, 1) 2 1).1) / 2,
        ((traction σ (1, 0) 2 1).2 + (traction σ (0, 1) 2 1).2) / 2) ∧
    ∀ x, (traction σ (0, -1) x 0).1 = 0 ∧
      (traction σ (0, -1) x 0).2 * -1 = -linearSubderivative (mmsStiffness lam mu) (-(u x 0).2) := by
  intro u
  refine ⟨mmsGradient alpha, mms_gradient alpha, ?_⟩
  have s00 : ∀ x y, hookeField lam mu (mmsGradient alpha) 0 0 x y =
      (lam + 2 * mu) * (alpha * (2 * y + y ^ 2)) + lam * (-alpha * x ^ 2) := fun x y => by
    simp [hookeField, mmsGradient]; ring
  have s01 : ∀ x y, hookeField lam mu (mmsGradient alpha) 0 1 x y = 0 := fun x y => by
    simp [hookeField, mmsGradient]; right; ring
  have s10 : ∀ x y, hookeField lam mu (mmsGradient alpha) 1 0 x y = 0 := fun x y => by
    simp [hookeField, mmsGradient]; right; ring
  have s11 : ∀ x y, hookeField lam mu (mmsGradient alpha) 1 1 x y =
      lam * (alpha * (2 * y + y ^ 2)) + (lam + 2 * mu) * (-alpha * x ^ 2) := fun x y => by
    simp [hookeField, mmsGradient]; ring
  have hW : (2 : ℝ) > 2 - 1 / 1000 := by norm_num
  have hH : (1 : ℝ) > 1 - 1 / 1000 := by norm_num
  have eW : mmsW = 2 := rfl
  have eH : mmsH = 1 := rfl
  refine ⟨?_, ?_, ?_, ?_, ?_, ?_⟩
  · intro x y
    refine ⟨lam * (-alpha * (2 * x)), 0, 0, lam * (alpha * (2 + 2 * y)), ?_, ?_, ?_, ?_, ?_, ?_⟩
    · simp only [s00]
      exact ((((hasDerivAt_pow 2 x).const_mul (-alpha)).const_mul lam).const_add _).congr_deriv
        (by simp)
    · simp only [s01]; exact hasDerivAt_const _ _
    · simp only [s10]; exact hasDerivAt_const _ _
    · simp only [s11]
      exact (((((hasDerivAt_id y).const_mul 2).add (hasDerivAt_pow 2 y)).const_mul alpha).const_mul
        lam).add_const _ |>.congr_deriv (by simp)
    · simp only [mmsInner]; ring
    · simp only [mmsInner]; ring
  · intro y; simp [u, mmsSolution]
  · intro y hy
    simp only [mmsOuter, eW, eH, if_pos hW, traction, s00, s01, s10, s11, not_lt.2 hy,
      and_false, if_false]
    simp
  · intro x hx
    simp only [mmsOuter, eW, eH, if_pos hH, traction, s00, s01, s10, s11, not_lt.2 hx,
      false_and, if_false]
    simp
  · simp only [mmsOuter, eW, eH, if_pos hH, if_pos hW, traction, s00, s01, s10, s11]
    rw [if_pos ⟨hW, hH⟩]
    simp
  · intro x
    simp only [traction, s00, s01, s10, s11, u, mmsSolution, linearSubderivative, mmsStiffness]
    refine ⟨by ring, ?_⟩
    split_ifs with h
    · have h1 : 0 ≤ alpha * x ^ 2 := by positivity
      have : alpha * x ^ 2 = 0 := le_antisymm (by linarith) h1
      linear_combination (-(lam + 2 * mu)) * this
    · ring

/-- C97: the Lamé parameters are those of Young's modulus and Poisson's ratio: in uniaxial stress, with
the strain `1` along the load and `-nu` across it, the stress along is `E` and across `0`. -/
theorem C97_lame (E nu : ℝ) (h1 : 1 + nu ≠ 0) (h2 : 1 - 2 * nu ≠ 0) :
    2 * lameMu E nu * 1 + lameLambda E nu * (1 - nu - nu) = E ∧
    2 * lameMu E nu * (-nu) + lameLambda E nu * (1 - nu - nu) = 0 := by
  constructor <;>
  · simp only [lameMu, lameLambda]
    have : 1 - nu - nu = 1 - 2 * nu := by ring
    rw [this]
    field_simp
    try ring

example : (1 : ℝ) + 42 / 100 ≠ 0 ∧ (1 : ℝ) - 2 * (42 / 100) ≠ 0 := by norm_num

/-! ### Error norms -/

section
variable {K : Type _} [Field K] [LinearOrder K] [IsStrictOrderedRing K]
  {elements : List (List ℕ)} {nodes : ℕ → ℕ → K} {N : ℕ}

theorem triangleArea_eq (nodes : ℕ → ℕ → K) (e : List ℕ) :
    triangleArea nodes e = area (vertices nodes e) := by
  simp only [triangleArea, area, det2, vertices]
  rw [show ∀ a : K, 1 / 2 * a = a / 2 from fun a => by ring]
  congr 2
  ring

theorem sum_zero_iff {α : Type _} (l : List α) (f : α → K) (hf : ∀ e ∈ l, 0 ≤ f e) :
    0 ≤ (l.map f).sum ∧ ((l.map f).sum = 0 ↔ ∀ e ∈ l, f e = 0) := by
  induction l with
  | nil => simp
  | cons e l ih =>
    have ih := ih fun e' he => hf e' (List.mem_cons_of_mem _ he)
    have h0 := hf e List.mem_cons_self
    rw [List.map_cons, List.sum_cons, List.forall_mem_cons, ← ih.2]
    exact ⟨add_nonneg h0 ih.1, add_eq_zero_iff_of_nonneg h0 ih.1⟩

omit [LinearOrder K] [IsStrictOrderedRing K] in
theorem sumElements_list (elements : List (List ℕ)) (f : List ℕ → K) :
    sumElements elements (fun _ e => f e) = (elements.map f).sum := by
  simp only [sumElements]
  induction elements using List.reverseRecOn with
  | nil => simp
  | append_singleton l e ih =>
    rw [List.length_append, List.length_singleton, Finset.sum_range_succ, List.map_append, List.sum_append,
      ← ih]
    congr 1
    · refine Finset.sum_congr rfl fun t ht => ?_
      rw [List.getD_append _ _ _ _ (Finset.mem_range.1 ht)]
    · simp

/-- C97: the total error of the manufactured solution is the norm given by the mass matrix, which is the
exact integral of the square of the difference of the piecewise linear fields, see C23. -/
theorem C97_total (sqrt : K → K) (hv : ValidElements 2 N elements) (hn : Nondegenerate2 elements nodes)
    (exact approx : ℕ → ℕ → K) :
    totalL2Norm sqrt elements nodes exact approx = sqrt
      (form N N (basicMatrices2 elements nodes).U (fun p => exact p 0 - approx p 0)
          (fun p => exact p 0 - approx p 0) +
        form N N (basicMatrices2 elements nodes).U (fun p => exact p 1 - approx p 1)
          (fun p => exact p 1 - approx p 1)) := by
  unfold totalL2Norm
  congr 1
  rw [C23_mass_form2 hv hn, C23_mass_form2 hv hn, ← sumElements_add, ← sumElements_list]
  refine sumElements_congr fun t _ => ?_
  simp only [elementIntegral, triangleArea_eq, Finset.sum_range_succ, Finset.sum_range_zero, valuesOn]
  ring

/-- C97: the error of temperatures is the norm given by the mass matrix as well, an absolute error. -/
theorem C97_temperature (sqrt : K → K) (hv : ValidElements 2 N elements)
    (hn : Nondegenerate2 elements nodes) (reference interpolated : ℕ → K) :
    temperatureError sqrt elements nodes reference interpolated = sqrt
      (form N N (basicMatrices2 elements nodes).U (fun p => reference p - interpolated p)
        (fun p => reference p - interpolated p)) := by
  have key : ∀ (f : List ℕ → K) (l : List (List ℕ)) (a : K),
      l.foldl (fun acc e => acc + f e) a = a + (l.map f).sum := by
    intro f l
    induction l with
    | nil => simp
    | cons e l ih => intro a; rw [List.foldl_cons, ih, List.map_cons, List.sum_cons, add_assoc]
  have hform : form N N (basicMatrices2 elements nodes).U (fun p => reference p - interpolated p)
      (fun p => reference p - interpolated p) = (elements.map fun e => triangleArea nodes e / 12 *
      (2 * ((reference (e.getD 0 0) - interpolated (e.getD 0 0)) *
          (reference (e.getD 0 0) - interpolated (e.getD 0 0)) +
        (reference (e.getD 1 0) - interpolated (e.getD 1 0)) *
          (reference (e.getD 1 0) - interpolated (e.getD 1 0)) +
        (reference (e.getD 2 0) - interpolated (e.getD 2 0)) *
          (reference (e.getD 2 0) - interpolated (e.getD 2 0))) +
        2 * ((reference (e.getD 0 0) - interpolated (e.getD 0 0)) *
          (reference (e.getD 1 0) - interpolated (e.getD 1 0)) +
        (reference (e.getD 0 0) - interpolated (e.getD 0 0)) *
          (reference (e.getD 2 0) - interpolated (e.getD 2 0)) +
        (reference (e.getD 1 0) - interpolated (e.getD 1 0)) *
          (reference (e.getD 2 0) - interpolated (e.getD 2 0))))).sum := by
    rw [C23_mass_form2 hv hn, ← sumElements_list]
    refine sumElements_congr fun t _ => ?_
    simp only [triangleArea_eq, valuesOn]
    ring
  simp only [temperatureError]
  rw [key, zero_add, ← hform, max_eq_left]
  rw [C23_mass_form2 hv hn]
  refine sumElements_nonneg _ _ fun t _ => ?_
  have : 0 ≤ area (vertices nodes (elements.getD t [])) := by unfold area; positivity
  refine mul_nonneg (by positivity) ?_
  simp only [valuesOn]
  nlinarith [sq_nonneg (reference ((elements.getD t []).getD 0 0) - interpolated ((elements.getD t []).getD 0 0) +
    (reference ((elements.getD t []).getD 1 0) - interpolated ((elements.getD t []).getD 1 0)) +
    (reference ((elements.getD t []).getD 2 0) - interpolated ((elements.getD t []).getD 2 0))),
    sq_nonneg (reference ((elements.getD t []).getD 0 0) - interpolated ((elements.getD t []).getD 0 0)),
    sq_nonneg (reference ((elements.getD t []).getD 1 0) - interpolated ((elements.getD t []).getD 1 0)),
    sq_nonneg (reference ((elements.getD t []).getD 2 0) - interpolated ((elements.getD t []).getD 2 0))]

/-- C97, negation: the error of temperatures is called relative and is not: it is multiplied by `c` if
both temperatures are. -/
theorem C97_relative_wrong (hv : ValidElements 2 N elements) {nodes : ℕ → ℕ → ℝ}
    (hn : Nondegenerate2 elements nodes) (reference interpolated : ℕ → ℝ) (c : ℝ) (hc : 0 ≤ c) :
    temperatureError Real.sqrt elements nodes (fun p => c * reference p) (fun p => c * interpolated p) =
      c * temperatureError Real.sqrt elements nodes reference interpolated := by
  rw [C97_temperature _ hv hn, C97_temperature _ hv hn, ← Real.sqrt_sq hc, ← Real.sqrt_mul (sq_nonneg c),
    Real.sqrt_sq hc]
  congr 1
  simp only [form, Finset.mul_sum]
  refine Finset.sum_congr rfl fun p _ => Finset.sum_congr rfl fun q _ => ?_
  ring

/-- C97: the total error is zero exactly if the fields agree at all nodes of elements. -/
theorem C97_total_zero {nodes : ℕ → ℕ → ℝ} (hv : ValidElements 2 N elements)
    (hn : Nondegenerate2 elements nodes) (exact approx : ℕ → ℕ → ℝ) :
    totalL2Norm Real.sqrt elements nodes exact approx = 0 ↔
      ∀ e ∈ elements, ∀ p ∈ e, ∀ k < 2, exact p k = approx p k := by
  set d : ℕ → ℕ → ℝ := fun p k => exact p k - approx p k with hd
  have hI : ∀ e, elementIntegral nodes d e = triangleArea nodes e / 12 *
      ((d (e.getD 0 0) 0 + d (e.getD 1 0) 0 + d (e.getD 2 0) 0) ^ 2 + d (e.getD 0 0) 0 ^ 2 +
        d (e.getD 1 0) 0 ^ 2 + d (e.getD 2 0) 0 ^ 2 +
        (d (e.getD 0 0) 1 + d (e.getD 1 0) 1 + d (e.getD 2 0) 1) ^ 2 + d (e.getD 0 0) 1 ^ 2 +
        d (e.getD 1 0) 1 ^ 2 + d (e.getD 2 0) 1 ^ 2) := by
    intro e
    simp only [elementIntegral, Finset.sum_range_succ, Finset.sum_range_zero]
    ring
  have harea : ∀ e ∈ elements, 0 < triangleArea nodes e := by
    intro e he
    rw [triangleArea_eq]
    unfold area
    have := abs_pos.2 (hn e he)
    positivity
  have hpos : ∀ e ∈ elements, 0 ≤ elementIntegral nodes d e := by
    intro e he
    rw [hI]
    have := harea e he
    positivity
  have hvert : ∀ e ∈ elements, ∀ p, p ∈ e ↔ p = e.getD 0 0 ∨ p = e.getD 1 0 ∨ p = e.getD 2 0 := by
    intro e he p
    match e, (hv e he).1 with
    | [a, b, c], _ => simp
  unfold totalL2Norm
  obtain ⟨hsum, hzero⟩ := sum_zero_iff elements (elementIntegral nodes d) hpos
  rw [Real.sqrt_eq_zero hsum, hzero]
  refine forall₂_congr fun e he => ?_
  have ha := harea e he
  rw [hI, mul_eq_zero, or_iff_right (by positivity)]
  constructor
  · intro h p hp k hk
    have hs : ∀ a : ℝ, 0 ≤ a ^ 2 := fun a => sq_nonneg a
    have h0 := hs (d (e.getD 0 0) 0 + d (e.getD 1 0) 0 + d (e.getD 2 0) 0)
    have h1 := hs (d (e.getD 0 0) 1 + d (e.getD 1 0) 1 + d (e.getD 2 0) 1)
    have a0 := hs (d (e.getD 0 0) 0)
    have a1 := hs (d (e.getD 1 0) 0)
    have a2 := hs (d (e.getD 2 0) 0)
    have b0 := hs (d (e.getD 0 0) 1)
    have b1 := hs (d (e.getD 1 0) 1)
    have b2 := hs (d (e.getD 2 0) 1)
    have key : ∀ a : ℝ, a ^ 2 ≤ 0 → a = 0 := fun a ha => pow_eq_zero_iff (two_ne_zero) |>.1
      (le_antisymm ha (sq_nonneg a))
    refine sub_eq_zero.1 (?_ : d p k = 0)
    have hk : k = 0 ∨ k = 1 := by omega
    rcases hk with rfl | rfl <;> rcases (hvert e he p).1 hp with rfl | rfl | rfl <;>
      exact key _ (by linarith)
  · intro h
    have hz : ∀ i < 3, ∀ k < 2, d (e.getD i 0) k = 0 := by
      intro i hi k hk
      refine sub_eq_zero.2 (h _ ((hvert e he _).2 ?_) k hk)
      have : i = 0 ∨ i = 1 ∨ i = 2 := by omega
      rcases this with rfl | rfl | rfl <;> simp
    rw [hz 0 (by norm_num) 0 (by norm_num), hz 1 (by norm_num) 0 (by norm_num),
      hz 2 (by norm_num) 0 (by norm_num), hz 0 (by norm_num) 1 (by norm_num),
      hz 1 (by norm_num) 1 (by norm_num), hz 2 (by norm_num) 1 (by norm_num)]
    norm_num

/-- What `np.add.at` adds up at one node. -/
theorem addAtNodes_eq (value : List ℕ → K) (p : ℕ) : addAtNodes elements value p =
    (elements.map fun e => (e.count p : K) * value e).sum := by
  have inner : ∀ (w : K) (e : List ℕ) (acc : ℕ → K), (e.foldl (fun (acc : ℕ → K) v => fun p =>
      if p = v then acc p + w else acc p) acc) p = acc p + (e.count p : K) * w := by
    intro w e
    induction e with
    | nil => simp
    | cons v e ih =>
      intro acc
      rw [List.foldl_cons, ih, List.count_cons]
      by_cases h : p = v
      · subst h; simp; ring
      · simp [h, Ne.symm h]
  have : ∀ (l : List (List ℕ)) (acc : ℕ → K), (l.foldl (fun acc e => e.foldl (fun (acc : ℕ → K) v =>
      fun p => if p = v then acc p + value e else acc p) acc) acc) p =
      acc p + (l.map fun e => (e.count p : K) * value e).sum := by
    intro l
    induction l with
    | nil => simp
    | cons e l ih => intro acc; rw [List.foldl_cons, ih, inner, List.map_cons, List.sum_cons, add_assoc]
  unfold addAtNodes
  rw [this, zero_add]

/-- C97, negation: the error drawn at the nodes is too large by the factor `√3`: if the difference is
`d` everywhere, then `√(3 |d|²)` is drawn at every node. -/
theorem C97_nodal_wrong (sqrt : K → K) (hn : Nondegenerate2 elements nodes)
    (exact approx : ℕ → ℕ → K) (d : ℕ → K) (hd : ∀ p k, exact p k - approx p k = d k)
    (p : ℕ) (hp : ∃ e ∈ elements, p ∈ e) :
    nodeL2Errors sqrt elements nodes exact approx p = sqrt (3 * (d 0 ^ 2 + d 1 ^ 2)) := by
  have harea : ∀ e ∈ elements, 0 < triangleArea nodes e := by
    intro e he
    rw [triangleArea_eq]
    unfold area
    have := abs_pos.2 (hn e he)
    positivity
  have hpos : 0 < (elements.map fun e => (e.count p : K) * triangleArea nodes e).sum := by
    obtain ⟨e, he, hpe⟩ := hp
    have hnn : ∀ e ∈ elements, 0 ≤ (e.count p : K) * triangleArea nodes e := fun e he =>
      mul_nonneg (Nat.cast_nonneg _) (harea e he).le
    obtain ⟨h0, hz⟩ := sum_zero_iff elements (fun e => (e.count p : K) * triangleArea nodes e) hnn
    refine lt_of_le_of_ne h0 fun h => ?_
    have := hz.1 h.symm e he
    have hc : (0 : K) < e.count p := Nat.cast_pos.2 (List.count_pos_iff.2 hpe)
    exact (mul_pos hc (harea e he)).ne' this
  have h1 : addAtNodes elements (fun e => triangleArea nodes e / 3) p =
      (elements.map fun e => (e.count p : K) * triangleArea nodes e).sum / 3 := by
    rw [addAtNodes_eq, div_eq_mul_inv, ← List.sum_map_mul_right]
    congr 1
    refine List.map_congr_left fun e _ => ?_
    ring
  have h2 : addAtNodes elements (elementIntegral nodes fun p k => exact p k - approx p k) p =
      (d 0 ^ 2 + d 1 ^ 2) * (elements.map fun e => (e.count p : K) * triangleArea nodes e).sum := by
    rw [addAtNodes_eq, ← List.sum_map_mul_left]
    congr 1
    refine List.map_congr_left fun e _ => ?_
    simp only [elementIntegral, Finset.sum_range_succ, Finset.sum_range_zero, hd]
    ring
  simp only [nodeL2Errors]
  rw [h1, h2, if_neg (by positivity)]
  congr 1
  field_simp

-- an error of 1 in each direction: the total is √(2 · 9/2) = 3, and 3 · 2 is drawn under the root
example : totalL2Norm (fun x => x) exampleMesh2 exampleNodes2 (fun _ _ => 1) (fun _ _ => 0) = 9 ∧
    ((List.range 4).map (nodeL2Errors (fun x => x) exampleMesh2 exampleNodes2 (fun _ _ => 1)
      (fun _ _ => 0))) = [6, 6, 6, 6] := by decide +kernel

/-- C97: comparing two states on the mesh of the reference gives zero exactly if on every element the
sums of the differences over the vertices and their symmetric gradient vanish. -/
theorem C97_compare_partial {nodes : ℕ → ℕ → ℝ} (u h : ℕ → ℕ → ℝ) :
    compareStates Real.sqrt elements nodes u h = 0 ↔ ∀ e ∈ elements,
      (∀ k < 2, (valuesOn e (fun p => u p k - h p k) 0 + valuesOn e (fun p => u p k - h p k) 1 +
        valuesOn e (fun p => u p k - h p k) 2) = 0) ∧
      (elementGradient nodes (fun p => u p 0 - h p 0) e).1 = 0 ∧
      (elementGradient nodes (fun p => u p 1 - h p 1) e).2 = 0 ∧
      (elementGradient nodes (fun p => u p 0 - h p 0) e).2 +
        (elementGradient nodes (fun p => u p 1 - h p 1) e).1 = 0 := by
  have key : ∀ (f : List ℕ → ℝ) (l : List (List ℕ)) (a : ℝ),
      l.foldl (fun acc e => acc + f e) a = a + (l.map f).sum := by
    intro f l
    induction l with
    | nil => simp
    | cons e l ih => intro a; rw [List.foldl_cons, ih, List.map_cons, List.sum_cons, add_assoc]
  simp only [compareStates]
  rw [key, zero_add, (sum_zero_iff _ _ fun e _ => Real.sqrt_nonneg _).2]
  refine forall₂_congr fun e he => ?_
  have hsub : ∀ k, (elementGradient nodes (fun p => u p k - h p k) e).1 =
      (elementGradient nodes (fun p => u p k) e).1 - (elementGradient nodes (fun p => h p k) e).1 ∧
      (elementGradient nodes (fun p => u p k - h p k) e).2 =
      (elementGradient nodes (fun p => u p k) e).2 - (elementGradient nodes (fun p => h p k) e).2 := by
    intro k
    simp only [elementGradient, calculateDxDy]
    constructor <;> ring
  rw [(hsub 0).1, (hsub 1).2, (hsub 0).2, (hsub 1).1]
  have h2 : ∀ P : ℕ → Prop, (∀ k < 2, P k) ↔ P 0 ∧ P 1 := fun P =>
    ⟨fun h => ⟨h 0 (by norm_num), h 1 (by norm_num)⟩, fun h k hk => by
      have : k = 0 ∨ k = 1 := by omega
      rcases this with rfl | rfl
      exacts [h.1, h.2]⟩
  rw [h2]
  rw [Real.sqrt_eq_zero (by positivity)]
  simp only [elementGradient, valuesOn]
  have five : ∀ a b c d f : ℝ, a ^ 2 + b ^ 2 + c ^ 2 + d ^ 2 + f ^ 2 = 0 ↔
      (a = 0 ∧ b = 0) ∧ c = 0 ∧ d = 0 ∧ f = 0 := by
    intro a b c d f
    constructor
    · intro hz
      have key : ∀ a : ℝ, a ^ 2 ≤ 0 → a = 0 := fun a ha => pow_eq_zero_iff (two_ne_zero) |>.1
        (le_antisymm ha (sq_nonneg a))
      have := sq_nonneg a
      have := sq_nonneg b
      have := sq_nonneg c
      have := sq_nonneg d
      have := sq_nonneg f
      exact ⟨⟨key a (by linarith), key b (by linarith)⟩, key c (by linarith), key d (by linarith),
        key f (by linarith)⟩
    · rintro ⟨⟨rfl, rfl⟩, rfl, rfl, rfl⟩; norm_num
  rw [five]
  refine and_congr (and_congr ?_ ?_) (and_congr Iff.rfl (and_congr Iff.rfl ?_))
  · rw [show ∀ a b c d f g : ℝ, a + b + c - (d + f + g) = a - d + (b - f) + (c - g) from
      fun a b c d f g => by ring]
  · rw [show ∀ a b c d f g : ℝ, a + b + c - (d + f + g) = a - d + (b - f) + (c - g) from
      fun a b c d f g => by ring]
  · rw [add_sub_assoc]

/-- C97, negation: the comparison is not an error. On a mesh of one triangle it is zero for states that
differ by a rotation about the centre of the triangle, of any size. -/
theorem C97_compare_wrong {nodes : ℕ → ℕ → ℝ} (a b c : ℕ) (_hn : Nondegenerate2 [[a, b, c]] nodes)
    (omega : ℝ) (u h : ℕ → ℕ → ℝ)
    (h0 : ∀ p, u p 0 - h p 0 = -omega * (nodes p 1 - (nodes a 1 + nodes b 1 + nodes c 1) / 3))
    (h1 : ∀ p, u p 1 - h p 1 = omega * (nodes p 0 - (nodes a 0 + nodes b 0 + nodes c 0) / 3)) :
    compareStates Real.sqrt [[a, b, c]] nodes u h = 0 := by
  rw [C97_compare_partial]
  intro e he
  obtain rfl : e = [a, b, c] := by simpa using he
  refine ⟨fun k hk => ?_, ?_, ?_, ?_⟩
  · have : k = 0 ∨ k = 1 := by omega
    rcases this with rfl | rfl
    · simp only [valuesOn, h0]; simp; ring
    · simp only [valuesOn, h1]; simp; ring
  all_goals
    simp only [elementGradient, calculateDxDy, h0, h1, List.getD_cons_zero, List.getD_cons_succ]
  · rw [div_eq_zero_iff]; left; ring
  · rw [div_eq_zero_iff]; left; ring
  · rw [← add_div, div_eq_zero_iff]; left; ring

example : Nondegenerate2 [[0, 1, 2]] fun i k => ((exampleNodes2 i k : ℚ) : ℝ) := by
  intro e he
  obtain rfl : e = [0, 1, 2] := by simpa using he
  have h := exampleMesh2_nondegenerate [0, 1, 2] (by decide)
  have : det2 (vertices (fun i k => ((exampleNodes2 i k : ℚ) : ℝ)) [0, 1, 2]) =
      ((det2 (vertices exampleNodes2 [0, 1, 2]) : ℚ) : ℝ) := by
    simp only [det2, vertices]; push_cast; rfl
  rw [this]
  exact_mod_cast h
end
end Conmech
