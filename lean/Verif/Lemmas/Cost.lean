import Verif.Spec.Cost
import Mathlib.Algebra.Order.BigOperators.Group.List
import Mathlib.Algebra.BigOperators.Ring.List
import Mathlib.Algebra.BigOperators.Field
import Mathlib.Tactic.Linarith
import Mathlib.Tactic.Ring
import Mathlib.Tactic.FieldSimp
import Mathlib.Tactic.Positivity
/-! Lemmas about the cost functional. -/
namespace Conmech
open Spec

variable {K : Type _} [Field K]

theorem foldl_sum {β : Type _} (l : List β) (f : β → K) (a : K) :
    l.foldl (fun acc x => acc + f x) a = a + (l.map f).sum := by
  induction l generalizing a with
  | nil => simp
  | cons x l ih => simp [ih, add_assoc]

theorem sum_map_div {β : Type _} (l : List β) (f : β → K) (c : K) :
    (l.map fun x => f x / c).sum = (l.map f).sum / c := by
  induction l with
  | nil => simp
  | cons x l ih => simp [ih, add_div]

theorem sum_map_mul {β : Type _} (l : List β) (f : β → K) (c : K) :
    (l.map fun x => c * f x).sum = c * (l.map f).sum := by
  induction l with
  | nil => simp
  | cons x l ih => simp [ih, mul_add]

theorem sum_map_add' {β : Type _} (l : List β) (f g : β → K) :
    (l.map fun x => f x + g x).sum = (l.map f).sum + (l.map g).sum := by
  induction l with
  | nil => simp
  | cons x l ih => simp only [List.map_cons, List.sum_cons, ih]; ring

theorem sum_map_const {β : Type _} (l : List β) (c : K) :
    (l.map fun _ => c).sum = (l.length : K) * c := by
  induction l with
  | nil => simp
  | cons x l ih => simp only [List.map_cons, List.sum_cons, ih, List.length_cons]; push_cast; ring

theorem interpolate_eq (edge : List ℕ) (vector full : Flat K) (dim i : ℕ) :
    interpolateNodeBetween edge vector full dim i =
      meanOver edge (fun node i => nodeValue dim vector full node i) i := by
  unfold interpolateNodeBetween meanOver
  rw [foldl_sum, zero_add, sum_map_div]

theorem getNodes_eq (edge : List ℕ) (vector full : Flat K) (dim : ℕ) :
    getNodes edge vector full dim =
      meanOver edge (nodeValue dim vector full) :: edge.map (nodeValue dim vector full) := by
  unfold getNodes
  congr 1
  funext i
  rw [foldl_sum, zero_add, sum_map_div]
  rfl

omit [Field K] in
theorem represents_value {dim : ℕ} {var old : Flat K} {v : ℕ → ℕ → K} {N : ℕ}
    (h : Represents dim var old v N) {node i : ℕ} (hn : node < N) (hi : i < dim) :
    nodeValue dim var old node i = v node i := by
  obtain ⟨hp, C, h1, h2, h3⟩ := h
  have hC : var.size / dim = C := by rw [h1]; exact Nat.mul_div_cancel_left _ hp
  unfold nodeValue
  rw [hC]
  split_ifs with hlt
  · exact h2 i hi node hlt
  · exact h3 i hi node (not_lt.1 hlt) hn

theorem normalPart_eq (dim : ℕ) (x n : ℕ → K) : normalPart dim x n = normalComponent dim x n := rfl

theorem tangentialPart_eq (dim : ℕ) (x n : ℕ → K) :
    tangentialPart dim x n = tangentialComponent dim x n := rfl

theorem normalComponent_congr {dim : ℕ} (hd : 0 < dim) {x y : ℕ → K} (n : ℕ → K)
    (h : ∀ i < dim, x i = y i) : normalComponent dim x n = normalComponent dim y n := by
  unfold normalComponent
  split_ifs with h1
  · exact h 0 hd
  · exact Finset.sum_congr rfl fun i hi => by rw [h i (Finset.mem_range.1 hi)]

theorem tangentialComponent_congr {dim : ℕ} (hd : 0 < dim) {x y : ℕ → K} (n : ℕ → K)
    (h : ∀ i < dim, x i = y i) : tangentialComponent dim x n = tangentialComponent dim y n := by
  unfold tangentialComponent
  rw [normalComponent_congr hd n h]
  split_ifs with h1
  · rfl
  · exact List.map_congr_left fun i hi => by rw [h i (List.mem_range.1 hi)]

theorem density_congr (c : Conditions K) {dim : ℕ} (hd : 0 < dim) (n : ℕ → K) (sn : K) (st : List K)
    (dt : K) {x y : ℕ → K} (h : ∀ i < dim, x i = y i) :
    density c dim n sn st dt x = density c dim n sn st dt y := by
  unfold density
  rw [normalComponent_congr hd n h, tangentialComponent_congr hd n h]

theorem meanOver_congr (edge : List ℕ) {v w : ℕ → ℕ → K} {i : ℕ} (h : ∀ node ∈ edge, v node i = w node i) :
    meanOver edge v i = meanOver edge w i := by
  unfold meanOver
  rw [List.map_congr_left h]

/-- The static arguments of the law on a surface. -/
def staticN (d : ContactData K) (s : Surface K) : K :=
  staticNormalPart d.problemDimension d.meshDimension
    (interpolateNodeBetween s.edge d.staticDisplacement d.staticDisplacement d.problemDimension) s.normal

/-- The static arguments of the law on a surface. -/
def staticT (d : ContactData K) (s : Surface K) : List K :=
  staticTangentialPart d.problemDimension d.meshDimension
    (interpolateNodeBetween s.edge d.staticDisplacement d.staticDisplacement d.problemDimension) s.normal

theorem sampleCost_eq (sqrt : K → K) (c : Conditions K) (d : ContactData K) (s : Surface K) (count : ℕ)
    (vm : ℕ → K) :
    sampleCost sqrt c d s count vm = surfaceLength sqrt d.nodes s.edge / (count : K) *
      density c d.variableDimension s.normal (staticN d s) (staticT d s) d.dt vm := rfl

/-- The cost of one surface. -/
def surfaceCost (sqrt : K → K) (c : Conditions K) (d : ContactData K) (var : Flat K) (s : Surface K) : K :=
  quadrature s.edge (surfaceLength sqrt d.nodes s.edge)
    (density c d.variableDimension s.normal (staticN d s) (staticT d s) d.dt)
    (nodeValue d.variableDimension var d.old)

theorem contactCostFunctional_eq (sqrt : K → K) (c : Conditions K) (d : ContactData K) (var : Flat K) :
    contactCostFunctional sqrt c d var = (d.surfaces.map (surfaceCost sqrt c d var)).sum := by
  unfold contactCostFunctional
  have : (fun (cost : K) (s : Surface K) =>
      let vms := getNodes s.edge var d.old d.variableDimension
      vms.foldl (fun cost vm => cost + sampleCost sqrt c d s vms.length vm) cost) =
      fun cost s => cost + surfaceCost sqrt c d var s := by
    funext cost s
    simp only
    rw [foldl_sum]
    congr 1
    have h1 : (getNodes s.edge var d.old d.variableDimension).length = s.edge.length + 1 := by
      rw [getNodes_eq]; simp
    rw [h1]
    rw [show sampleCost sqrt c d s (s.edge.length + 1) = fun vm => _ from
      funext (sampleCost_eq sqrt c d s (s.edge.length + 1)), sum_map_mul, getNodes_eq, List.map_cons, List.sum_cons, List.map_map]
    rfl
  rw [this, foldl_sum, zero_add]

theorem quadrature_congr (c : Conditions K) {dim : ℕ} (hd : 0 < dim) (n : ℕ → K) (sn : K) (st : List K)
    (dt : K) (edge : List ℕ) (l : K) {v w : ℕ → ℕ → K}
    (h : ∀ node ∈ edge, ∀ i < dim, v node i = w node i) :
    quadrature edge l (density c dim n sn st dt) v = quadrature edge l (density c dim n sn st dt) w := by
  unfold quadrature
  rw [density_congr c hd n sn st dt (fun i hi => meanOver_congr edge fun node hn => h node hn i hi),
    List.map_congr_left fun node hn => density_congr c hd n sn st dt (h node hn)]

section order
variable [LinearOrder K] [IsStrictOrderedRing K]

theorem meanOver_combine (edge : List ℕ) (v w : ℕ → ℕ → K) (a b : K) (i : ℕ) :
    meanOver edge (fun node i => a * v node i + b * w node i) i =
      a * meanOver edge v i + b * meanOver edge w i := by
  unfold meanOver
  rw [sum_map_add', sum_map_mul, sum_map_mul]
  ring

theorem quadrature_convex (edge : List ℕ) (l : K) (hl : 0 ≤ l) (g : (ℕ → K) → K) (hg : ConvexVec g)
    (v w : ℕ → ℕ → K) (a b : K) (ha : 0 ≤ a) (hb : 0 ≤ b) (hab : a + b = 1) :
    quadrature edge l g (fun node i => a * v node i + b * w node i) ≤
      a * quadrature edge l g v + b * quadrature edge l g w := by
  unfold quadrature
  have h0 : (meanOver edge fun node i => a * v node i + b * w node i) =
      fun i => a * meanOver edge v i + b * meanOver edge w i := by
    funext i; exact meanOver_combine edge v w a b i
  rw [h0]
  have h1 := hg (meanOver edge v) (meanOver edge w) a b ha hb hab
  have h2 : (edge.map fun node => g fun i => a * v node i + b * w node i).sum ≤
      a * (edge.map fun node => g (v node)).sum + b * (edge.map fun node => g (w node)).sum := by
    rw [← sum_map_mul, ← sum_map_mul, ← sum_map_add']
    exact List.sum_le_sum fun node _ => hg (v node) (w node) a b ha hb hab
  have h3 : 0 ≤ l / ((edge.length + 1 : ℕ) : K) := by positivity
  have := mul_le_mul_of_nonneg_left (add_le_add h1 h2) h3
  calc _ ≤ _ := this
    _ = _ := by ring

omit [LinearOrder K] [IsStrictOrderedRing K] in
theorem nodeValue_combine (dim n : ℕ) (x y : ℕ → K) (old : Flat K) (a b : K) (hab : a + b = 1) :
    nodeValue dim ⟨n, fun k => a * x k + b * y k⟩ old =
      fun node i => a * nodeValue dim ⟨n, x⟩ old node i + b * nodeValue dim ⟨n, y⟩ old node i := by
  funext node i
  unfold nodeValue
  simp only
  split_ifs
  · rfl
  · rw [← add_mul, hab, one_mul]

end order

end Conmech
