import Verif.Lemmas.Patch
import Verif.Props.Thermal
import Verif.Props.Static
/-!
C86: affine fields pass the patch test.

`x` vanishes on the boundary means: its values at the nodes of boundary faces are zero, where the
boundary faces are those that belong to one element (`Spec.BoundaryNode`, which is what the code
computes by C05).
-/
namespace Conmech
open Spec

section
variable {K : Type} [Field K] [LinearOrder K] [IsStrictOrderedRing K]
variable {N : ℕ} {elements : List (List ℕ)} {nodes : ℕ → ℕ → K}

/-- The gradient of a field that vanishes on the boundary has mean zero. -/
theorem mean_gradient {d : ℕ} (hd : 0 < d) {good : (ℕ → ℕ → K) → Prop}
    {size : (ℕ → ℕ → K) → K} {g : (ℕ → ℕ → K) → ℕ → ℕ → K} (F : SimplexFamily d good size g)
    (hv : ValidElements d N elements)
    (hgood : ∀ e ∈ elements, good (vertices nodes e)) (hno : NonOverlapping d elements nodes)
    {x : ℕ → K} (hx : ∀ p < N, BoundaryNode elements p → x p = 0) {G : ℕ → ℕ → K}
    (hG : FieldGradient d elements nodes x G) (k : ℕ) (hk : k < d) :
    sumElements elements (fun t e => size (vertices nodes e) * G t k) = 0 := by
  have h1 : sumElements elements (fun t e => size (vertices nodes e) * G t k) =
      ∑ p ∈ Finset.range N, x p * sumElements elements (fun _ e => size (vertices nodes e) *
        ∑ i ∈ Finset.range (d + 1), (if e.getD i 0 = p then 1 else 0) * g (vertices nodes e) i k) := by
    unfold sumElements
    simp only [Finset.mul_sum]
    rw [Finset.sum_comm]
    refine Finset.sum_congr rfl fun t ht => ?_
    have he := getD_mem (Finset.mem_range.1 ht)
    rw [← (F.shape _ (hgood _ he)).gradient_eq (hG t (Finset.mem_range.1 ht)) hk, Finset.mul_sum,
      Finset.sum_comm]
    refine Finset.sum_congr rfl fun i hi => ?_
    have hlt := getD_lt hv he (Finset.mem_range.1 hi)
    rw [Finset.sum_eq_single ((elements.getD t []).getD i 0)]
    · simp only [valuesOn, if_true, one_mul]; ring
    · intro p _ hp
      rw [if_neg (fun h => hp h.symm)]; ring
    · intro h; exact absurd (Finset.mem_range.2 hlt) h
  rw [h1]
  refine Finset.sum_eq_zero fun p hp => ?_
  by_cases hb : BoundaryNode elements p
  · rw [hx p (Finset.mem_range.1 hp) hb, zero_mul]
  · rw [interior_flux hd F hv hgood hno hb k hk, mul_zero]

omit [LinearOrder K] [IsStrictOrderedRing K] in
theorem AffineField.gradient {d : ℕ} (hv : ValidElements d N elements) {c : K} {G x : ℕ → K}
    (h : AffineField d N nodes c G x) : FieldGradient d elements nodes x fun _ => G := by
  intro t ht
  refine ⟨c, fun i hi => ?_⟩
  simp only [valuesOn]
  rw [h _ (getD_lt hv (getD_mem ht) hi)]
  rfl

/-- C86: on a triangular mesh without overlaps, every stiffness block maps affine fields to zero when
tested with fields that vanish on the boundary. -/
theorem C86_blocks2 (hv : ValidElements 2 N elements) (hn : Nondegenerate2 elements nodes)
    (hno : NonOverlapping 2 elements nodes) (k l : ℕ) (hk : k < 2) (hl : l < 2) (x y : ℕ → K) (c : K)
    (G : ℕ → K) (hx : ∀ p < N, BoundaryNode elements p → x p = 0)
    (hy : AffineField 2 N nodes c G y) :
    form N N ((basicMatrices2 elements nodes).W k l) x y = 0 := by
  obtain ⟨X, hX⟩ := exists_fieldGradient (Plane.allLocal hn) x
  have h0 := mean_gradient (by omega) Plane.family hv hn hno hx hX k hk
  have h1 := form_stiff hv (Plane.allLocal hn) hk hl hX (AffineField.gradient hv hy)
  refine h1.trans ?_
  rw [← mul_zero (G l), ← h0, ← sumElements_mul]
  exact sumElements_congr fun t _ => by ring

/-- C86: the same on a tetrahedral mesh. -/
theorem C86_blocks3 (hv : ValidElements 3 N elements) (hn : Nondegenerate3 elements nodes)
    (hno : NonOverlapping 3 elements nodes) (k l : ℕ) (hk : k < 3) (hl : l < 3) (x y : ℕ → K) (c : K)
    (G : ℕ → K) (hx : ∀ p < N, BoundaryNode elements p → x p = 0)
    (hy : AffineField 3 N nodes c G y) :
    form N N ((basicMatrices3 elements nodes).W k l) x y = 0 := by
  obtain ⟨X, hX⟩ := exists_fieldGradient (Space.allLocal hn) x
  have h0 := mean_gradient (by omega) Space.family hv hn hno hx hX k hk
  have h1 := form_stiff hv (Space.allLocal hn) hk hl hX (AffineField.gradient hv hy)
  refine h1.trans ?_
  rw [← mul_zero (G l), ← h0, ← sumElements_mul]
  exact sumElements_congr fun t _ => by ring

omit [LinearOrder K] [IsStrictOrderedRing K] in
theorem single_boundary {p : ℕ} (hp : ¬ BoundaryNode elements p) :
    ∀ q < N, BoundaryNode elements q → (single p : ℕ → K) q = 0 := by
  intro q _ hq
  unfold single
  rw [if_neg]
  rintro rfl
  exact hp hq

omit [LinearOrder K] [IsStrictOrderedRing K] in
theorem single_component_boundary {p a : ℕ} (hpN : p < N) (hp : ¬ BoundaryNode elements p) (b : ℕ) :
    ∀ q < N, BoundaryNode elements q → component N (single (a * N + p) : ℕ → K) b q = 0 := by
  intro q hqN hq
  simp only [component, single]
  rw [if_neg]
  intro h
  have h1 : (b * N + q) % N = (a * N + p) % N := by rw [h]
  rw [block_mod b hqN, block_mod a hpN] at h1
  exact hp (h1 ▸ hq)

/-- C86: Poisson problems. No interior node receives flux from an affine field: the rows of the Poisson
and conductivity matrices give zero. -/
theorem C86_poisson2 (hv : ValidElements 2 N elements) (hn : Nondegenerate2 elements nodes)
    (hno : NonOverlapping 2 elements nodes) (prop c : K) (C : ℕ → ℕ → K) (G x : ℕ → K)
    (hx : AffineField 2 N nodes c G x) (p : ℕ) (hp : p < N) (hi : ¬ BoundaryNode elements p) :
    act N (poissonMatrix 2 (basicMatrices2 elements nodes).W prop) x p = 0 ∧
    act N (Plane.conductivity (basicMatrices2 elements nodes).W C) x p = 0 := by
  have h := fun k l hk hl =>
    C86_blocks2 hv hn hno k l hk hl (single p) x c G (single_boundary hi) hx
  rw [← form_act _ _ hp, ← form_act _ _ hp]
  constructor
  · rw [form_poisson, Finset.sum_eq_zero fun k hk =>
      h k k (Finset.mem_range.1 hk) (Finset.mem_range.1 hk), mul_zero]
  · unfold Plane.conductivity
    simp only [form_add, form_mul, h, Nat.zero_lt_two, Nat.one_lt_two, mul_zero, add_zero]

/-- C86: the same on a tetrahedral mesh. -/
theorem C86_poisson3 (hv : ValidElements 3 N elements) (hn : Nondegenerate3 elements nodes)
    (hno : NonOverlapping 3 elements nodes) (prop c : K) (C : ℕ → ℕ → K) (G x : ℕ → K)
    (hx : AffineField 3 N nodes c G x) (p : ℕ) (hp : p < N) (hi : ¬ BoundaryNode elements p) :
    act N (poissonMatrix 3 (basicMatrices3 elements nodes).W prop) x p = 0 ∧
    act N (Space.conductivity (basicMatrices3 elements nodes).W C) x p = 0 := by
  have h := fun k l hk hl =>
    C86_blocks3 hv hn hno k l hk hl (single p) x c G (single_boundary hi) hx
  rw [← form_act _ _ hp, ← form_act _ _ hp]
  constructor
  · rw [form_poisson, Finset.sum_eq_zero fun k hk =>
      h k k (Finset.mem_range.1 hk) (Finset.mem_range.1 hk), mul_zero]
  · unfold Space.conductivity
    simp only [form_add, form_mul, h, show 0 < 3 by decide, show 1 < 3 by decide,
      show 2 < 3 by decide, mul_zero, add_zero]

/-- C86: elasticity. A homogeneous deformation exerts no force on interior nodes, for every pair of
coefficients (so the same holds for viscosity) and for every relaxation tensor. -/
theorem C86_elastic2 (hv : ValidElements 2 N elements) (hn : Nondegenerate2 elements nodes)
    (hno : NonOverlapping 2 elements nodes) (mu lam : K) (R : ℕ → ℕ → ℕ → K) (c : ℕ → K)
    (G : ℕ → ℕ → K) (u : ℕ → K) (hu : ∀ b < 2, AffineField 2 N nodes (c b) (G b) (component N u b))
    (a p : ℕ) (ha : a < 2) (hp : p < N) (hi : ¬ BoundaryNode elements p) :
    act (2 * N) (Plane.constitutive N (basicMatrices2 elements nodes).W mu lam) u (a * N + p) = 0 ∧
    act (2 * N) (Plane.relaxationTensor N (basicMatrices2 elements nodes).W R) u (a * N + p) = 0 := by
  have h : ∀ b, ∀ d < 2, ∀ k < 2, ∀ l < 2, form N N ((basicMatrices2 elements nodes).W k l)
      (component N (single (a * N + p)) b) (component N u d) = 0 := fun b d hd k hk l hl =>
    C86_blocks2 hv hn hno k l hk hl _ _ (c d) (G d) (single_component_boundary hp hi b) (hu d hd)
  rw [← form_act _ _ (block_lt ha hp), ← form_act _ _ (block_lt ha hp)]
  constructor
  · unfold Plane.constitutive
    rw [form_block]
    simp only [Finset.sum_range_succ, Finset.sum_range_zero, zero_add, form_add, form_mul, h,
      Nat.zero_lt_two, Nat.one_lt_two, mul_zero, add_zero]
  · unfold Plane.relaxationTensor
    rw [form_block]
    simp only [Finset.sum_range_succ, Finset.sum_range_zero, zero_add, form_add, form_mul, h,
      Nat.zero_lt_two, Nat.one_lt_two, mul_zero, add_zero]

/-- C86: the same on a tetrahedral mesh. -/
theorem C86_elastic3 (hv : ValidElements 3 N elements) (hn : Nondegenerate3 elements nodes)
    (hno : NonOverlapping 3 elements nodes) (mu lam : K) (c : ℕ → K)
    (G : ℕ → ℕ → K) (u : ℕ → K) (hu : ∀ b < 3, AffineField 3 N nodes (c b) (G b) (component N u b))
    (a p : ℕ) (ha : a < 3) (hp : p < N) (hi : ¬ BoundaryNode elements p) :
    act (3 * N) (Space.constitutive N (basicMatrices3 elements nodes).W mu lam) u (a * N + p) = 0 := by
  have h : ∀ b, ∀ d < 3, ∀ k < 3, ∀ l < 3, form N N ((basicMatrices3 elements nodes).W k l)
      (component N (single (a * N + p)) b) (component N u d) = 0 := fun b d hd k hk l hl =>
    C86_blocks3 hv hn hno k l hk hl _ _ (c d) (G d) (single_component_boundary hp hi b) (hu d hd)
  rw [← form_act _ _ (block_lt ha hp)]
  unfold Space.constitutive
  rw [form_block]
  simp only [Finset.sum_range_succ, Finset.sum_range_zero, zero_add, form_add, form_mul, h,
    show 0 < 3 by decide, show 1 < 3 by decide, show 2 < 3 by decide, mul_zero, add_zero]

/-- C86: a uniform temperature exerts no thermal force on interior nodes. -/
theorem C86_heating (theta : K) (C : ℕ → ℕ → K) (p : ℕ) (hp : p < N)
    (hi : ¬ BoundaryNode elements p) :
    (ValidElements 2 N elements → Nondegenerate2 elements nodes → NonOverlapping 2 elements nodes →
      ∀ a < 2, matVec N (transposed (Plane.thermalExpansion N (basicMatrices2 elements nodes).V C))
        (fun _ => theta) (a * N + p) = 0) ∧
    (ValidElements 3 N elements → Nondegenerate3 elements nodes → NonOverlapping 3 elements nodes →
      ∀ a < 3, matVec N (transposed (Space.thermalExpansion N (basicMatrices3 elements nodes).V C))
        (fun _ => theta) (a * N + p) = 0) := by
  have key : ∀ (d : ℕ) (M : ℕ → ℕ → K) (size : (ℕ → ℕ → K) → K) (c : ℕ → ℕ → K),
      (∀ (x v : ℕ → K) V, VectorGradient d N elements nodes v V →
        form N (d * N) M x v = sumElements elements fun t e => size (vertices nodes e) *
          ((∑ i ∈ Finset.range (d + 1), valuesOn e x i) / ((d : K) + 1) *
            ∑ a ∈ Finset.range d, ∑ k ∈ Finset.range d, c a k * V t a k)) →
      (∀ (x : ℕ → K) (X : ℕ → ℕ → K), FieldGradient d elements nodes x X →
        (∀ q < N, BoundaryNode elements q → x q = 0) → ∀ k < d,
          sumElements elements (fun t e => size (vertices nodes e) * X t k) = 0) →
      (∀ v : ℕ → K, ∃ V, VectorGradient d N elements nodes v V) →
      ∀ a < d, matVec N (transposed M) (fun _ => theta) (a * N + p) = 0 := by
    intro d M size c hM hmean hex a ha
    obtain ⟨V, hV⟩ := hex (single (a * N + p))
    have h1 : matVec N (transposed M) (fun _ => theta) (a * N + p) =
        form N (d * N) M (fun _ => theta) (single (a * N + p)) := by
      rw [form_single_right M (block_lt ha hp)]
      exact Finset.sum_congr rfl fun q _ => by simp only [transposed]; ring
    rw [h1, hM _ _ V hV]
    have h2 : ∀ t < elements.length, size (vertices nodes (elements.getD t [])) *
        ((∑ i ∈ Finset.range (d + 1), valuesOn (elements.getD t []) (fun _ => theta) i) /
          ((d : K) + 1) * ∑ a ∈ Finset.range d, ∑ k ∈ Finset.range d, c a k * V t a k) =
        ∑ a ∈ Finset.range d, ∑ k ∈ Finset.range d, theta * c a k *
          (size (vertices nodes (elements.getD t [])) * V t a k) := by
      intro t _
      have hd1 : ((d : K) + 1) ≠ 0 := by positivity
      simp only [valuesOn, Finset.sum_const, Finset.card_range, nsmul_eq_mul]
      push_cast
      rw [mul_div_assoc, mul_comm ((d : K) + 1), div_mul_cancel₀ _ hd1]
      simp only [Finset.mul_sum]
      exact Finset.sum_congr rfl fun a _ => Finset.sum_congr rfl fun k _ => by ring
    unfold sumElements at *
    rw [Finset.sum_congr rfl fun t ht => h2 t (Finset.mem_range.1 ht), Finset.sum_comm]
    refine Finset.sum_eq_zero fun b hb => ?_
    rw [Finset.sum_comm]
    refine Finset.sum_eq_zero fun k hk => ?_
    rw [← Finset.mul_sum, hmean _ _ (hV b (Finset.mem_range.1 hb))
      (single_component_boundary hp hi b) k (Finset.mem_range.1 hk), mul_zero]
  constructor
  · intro hv hn hno
    exact key 2 _ area C (fun x v V hV => C28_expansion2 hv hn C x v V hV)
      (fun x X hX h0 k hk => mean_gradient (by omega) Plane.family hv hn hno h0 hX k hk)
      (exists_vectorGradient (Plane.allLocal hn))
  · intro hv hn hno
    exact key 3 _ Spec.volume C (fun x v V hV => C28_expansion3 hv hn C x v V hV)
      (fun x X hX h0 k hk => mean_gradient (by omega) Space.family hv hn hno h0 hX k hk)
      (exists_vectorGradient (Space.allLocal hn))

/-! ### solvers return affine fields -/

omit [LinearOrder K] [IsStrictOrderedRing K] in
/-- Two fields with the same values on `D` and the same forces elsewhere are equal if the matrix is
definite. -/
theorem definite_unique {n : ℕ} {D : ℕ → Prop} [DecidablePred D] {A : ℕ → ℕ → K} {f x y : ℕ → K}
    (h : DefiniteOn n D A) (hD : ∀ r < n, D r → x r = y r)
    (hx : ∀ r < n, ¬ D r → act n A x r = f r) (hy : ∀ r < n, ¬ D r → act n A y r = f r) :
    ∀ r < n, x r = y r := by
  intro r hr
  refine sub_eq_zero.1 (h (fun r => x r - y r) (fun r hr hDr => by simp only [hD r hr hDr, sub_self]) ?_ r hr)
  refine Finset.sum_eq_zero fun r hr => ?_
  have hr := Finset.mem_range.1 hr
  by_cases hDr : D r
  · simp only [hD r hr hDr, sub_self, zero_mul]
  · have h1 := hx r hr hDr
    have h2 := hy r hr hDr
    unfold act at h1 h2
    simp only [mul_sub, Finset.sum_sub_distrib]
    rw [h1, h2]; ring

variable {V : Type}

/-- C86: a static elastic problem without loads whose whole boundary is moved by an affine field has
this field as its displacement, whatever registered solver is used and whatever the initial
displacement. -/
theorem C86_static {c : ProblemClass} (e : Engine K) (hk : e.kind = .staticDisplacement)
    (hr : Registered c e.cls e.kind) (D : ℕ → Prop) [DecidablePred D] (g : ℕ → K)
    (hb : ValidBoundaries e.ops.nodesCount e.boundaries)
    (hd : DirichletData e.ops.nodesCount e.ops.dimension e.boundaries D g)
    (inv : ℕ → (ℕ → ℕ → K) → ℕ → ℕ → K) (contactCount : ℕ) (dv : Bool) (dt : K) (solver : SolverState K)
    (hi : solverInit inv e.cls e.kind e.ops e.boundaries contactCount dv dt = .ok solver)
    (hs : SolvesHeld e (e.ops.dimension * e.ops.nodesCount) solver)
    (initial : ℕ → ℕ → K) (products : List ℕ) (store : ProductStore K V) (s : State K)
    (sim : Simulation K V) (h : e.staticSolve initial products solver store = .ok (s, sim))
    (hN : e.ops.nodesCount = N) (hdim : e.ops.dimension = 2)
    (hv : ValidElements 2 N elements) (hn : Nondegenerate2 elements nodes)
    (hno : NonOverlapping 2 elements nodes) (mu lam : K) (hmu : 0 < mu) (hlam : 0 ≤ lam)
    (hel : e.ops.elasticity = Plane.constitutive N (basicMatrices2 elements nodes).W mu lam)
    (hh : ∀ p < N, Held elements (fun q => q < N ∧ D q ∧ D (N + q)) p)
    (hbd : ∀ p < N, BoundaryNode elements p → D p ∧ D (N + p))
    (hforce : ∀ r < 2 * N, ¬ D r → e.ops.force 0 r = 0)
    (b : ℕ → K) (G : ℕ → ℕ → K) (u : ℕ → K)
    (hu : ∀ a < 2, AffineField 2 N nodes (b a) (G a) (component N u a))
    (hg : ∀ r < 2 * N, D r → g r = u r) :
    ∀ r < 2 * N, State.flatten e.grid s.displacement r = u r := by
  obtain ⟨h1, h2⟩ := C75_static e hk hr D g hb hd inv contactCount dv dt solver hi hs initial products
    store s sim h
  rw [hdim, hN, hel] at *
  have hdef := C74_elastic2 hv hn mu lam hmu hlam D hh
  refine definite_unique (f := fun _ => 0) hdef (fun r hr hD => (h1 r hr hD).trans (hg r hr hD))
    (fun r hr hD => (h2 r hr hD).trans (hforce r hr hD)) fun r hr hD => ?_
  have hN0 : 0 < N := by omega
  have ha : r / N < 2 := (Nat.div_lt_iff_lt_mul hN0).2 hr
  have hp : r % N < N := Nat.mod_lt _ hN0
  have hrr : r / N * N + r % N = r := Nat.div_add_mod' r N
  have hin : ¬ BoundaryNode elements (r % N) := by
    intro hbn
    obtain ⟨d0, d1⟩ := hbd _ hp hbn
    have : r / N = 0 ∨ r / N = 1 := by
      clear hrr
      generalize r / N = q at *
      omega
    rcases this with h | h
    · rw [h, zero_mul, zero_add] at hrr; exact hD (hrr ▸ d0)
    · rw [h, one_mul] at hrr; exact hD (hrr ▸ d1)
  have := (C86_elastic2 hv hn hno mu lam (fun _ _ _ => 0) b G u hu (r / N) (r % N) ha hp hin).1
  rwa [hrr] at this

/-- C86: a Poisson problem without sources whose boundary values are those of an affine field has this
field as its solution. -/
theorem C86_poisson {c : ProblemClass} (e : Engine K) (hk : e.kind = .staticPoisson)
    (hr : Registered c e.cls e.kind) (D : ℕ → Prop) [DecidablePred D] (g : ℕ → K)
    (hb : ValidBoundaries e.ops.nodesCount e.boundaries)
    (hd : DirichletData e.ops.nodesCount 1 e.boundaries D g)
    (inv : ℕ → (ℕ → ℕ → K) → ℕ → ℕ → K) (contactCount : ℕ) (dv : Bool) (dt : K) (solver : SolverState K)
    (hi : solverInit inv e.cls e.kind e.ops e.boundaries contactCount dv dt = .ok solver)
    (hs : ∀ S : SolverState K, S.system = solver.system → S.schur = solver.schur →
      S.tVector = (fun _ => 0) → Solves e.ops.nodesCount S.system (e.solve S fun _ => 0))
    (hN : e.ops.nodesCount = N)
    (hv : ValidElements 2 N elements) (hn : Nondegenerate2 elements nodes)
    (hno : NonOverlapping 2 elements nodes) (prop : K) (hprop : prop ≠ 0)
    (hpo : e.ops.poisson = poissonMatrix 2 (basicMatrices2 elements nodes).W prop)
    (hj : ∀ p < N, Joined 3 elements (fun q => q < N ∧ D q) p)
    (hbd : ∀ p < N, BoundaryNode elements p → D p)
    (hsource : ∀ r < N, ¬ D r → e.ops.bodyTemperature 0 r = 0)
    (b : K) (G u : ℕ → K) (hu : AffineField 2 N nodes b G u) (hg : ∀ r < N, D r → g r = u r) :
    ∃ s solver' T, e.poissonSolve solver = .ok (s, solver') ∧ s.scalar = .temperature T ∧
      ∀ p < N, T p = u p := by
  obtain ⟨s, solver', h0, T, hT, h1, h2⟩ := C75_poisson e hk hr D g hb hd inv contactCount dv dt solver
    hi hs
  refine ⟨s, solver', T, h0, hT, ?_⟩
  rw [hN, hpo] at *
  refine definite_unique (f := fun _ => 0) (C74_poisson2 hv hn prop hprop D hj)
    (fun r hr hD => (h1 r hr hD).trans (hg r hr hD))
    (fun r hr hD => (h2 r hr hD).trans (hsource r hr hD)) fun r hr hD => ?_
  exact (C86_poisson2 hv hn hno prop b (fun _ _ => 0) G u hu r hr fun h => hD (hbd r hr h)).1

end

/-! ### a mesh -/

/-- A quadrilateral with an interior node. -/
def patchNodes : ℕ → ℕ → ℚ := fun p k =>
  (([[0, 0], [2, 0], [2, 2], [0, 1], [1, 1 / 2]] : List (List ℚ)).getD p []).getD k 0

/-- Four triangles at the node 4. -/
def patchElements : List (List ℕ) := [[0, 1, 4], [2, 1, 4], [4, 2, 3], [3, 0, 4]]

theorem patch_valid : ValidElements 2 5 patchElements := by
  unfold ValidElements; decide

theorem patch_nondegenerate : Nondegenerate2 patchElements patchNodes := by
  intro e he
  simp only [patchElements, List.mem_cons, List.not_mem_nil, or_false] at he
  rcases he with rfl | rfl | rfl | rfl <;> simp [det2, vertices, patchNodes] <;> norm_num

theorem patch_nonOverlapping : NonOverlapping 2 patchElements patchNodes := by
  rintro t ht t' ht' hne x ⟨w, w1, w2, w3⟩ ⟨v, v1, v2, v3⟩
  have a0 := w1 0 (by omega)
  have a1 := w1 1 (by omega)
  have a2 := w1 2 (by omega)
  have b0 := v1 0 (by omega)
  have b1 := v1 1 (by omega)
  have b2 := v1 2 (by omega)
  have c0 := (w3 0 (by omega)).symm.trans (v3 0 (by omega))
  have c1 := (w3 1 (by omega)).symm.trans (v3 1 (by omega))
  simp only [Finset.sum_range_succ, Finset.sum_range_zero, zero_add, vertices] at w2 v2 c0 c1
  simp only [patchElements, List.length_cons, List.length_nil] at ht ht'
  interval_cases t <;> interval_cases t' <;> first
    | exact absurd rfl hne
    | (simp [patchElements, patchNodes] at c0 c1; linarith)

/-- The hypotheses of C86 are met by the quadrilateral: node 4 is an interior node, the others lie on
the boundary. -/
example : ValidElements 2 5 patchElements ∧ Nondegenerate2 patchElements patchNodes ∧
    NonOverlapping 2 patchElements patchNodes ∧ ¬ BoundaryNode patchElements 4 ∧
    (∀ p < 4, BoundaryNode patchElements p) ∧
    AffineField 2 5 patchNodes 1 (fun k => if k = 0 then 2 else 3)
      (fun p => 1 + (2 * patchNodes p 0 + 3 * patchNodes p 1)) :=
  ⟨patch_valid, patch_nondegenerate, patch_nonOverlapping, by decide, by decide, fun p _ => by
    simp [Finset.sum_range_succ]⟩

/-- The values `1 + 2 x + 3 y`. -/
def patchField (r : ℕ) : ℚ := 1 + (2 * patchNodes (r % 5) 0 + 3 * patchNodes (r % 5) 1)

/-- An elastic problem without loads on the quadrilateral, solved exactly; both coordinates of the
boundary nodes are moved by `1 + 2 x + 3 y`. -/
noncomputable def patchEngine : Engine ℚ where
  grid := { nodesCount := 5, dimension := 2, nodes := patchNodes }
  cls := .staticGlobal
  kind := .staticDisplacement
  ops := { exampleOps with
    nodesCount := 5
    elasticity := Plane.constitutive 5 (basicMatrices2 patchElements patchNodes).W 2 1
    force := fun _ _ => 0 }
  boundaries := [⟨.list [0, 1, 2, 3], patchField⟩]
  solve := fun s _ => exactSolution 10 s.system

theorem patch_data :
    ValidBoundaries 5 patchEngine.boundaries ∧
    DirichletData 5 2 patchEngine.boundaries (fun r => r < 10 ∧ r % 5 < 4) patchField := by
  have hmod : ∀ d j node : ℕ, ([0, 1, 2, 3] : List ℕ)[j]? = some node → node = j ∧ j < 4 := by
    intro d j node h
    obtain ⟨hj, h⟩ := List.getElem?_eq_some_iff.1 h
    simp only [List.length_cons, List.length_nil] at hj
    interval_cases j <;> simp at h <;> omega
  refine ⟨?_, ⟨fun r => ⟨?_, ?_⟩, ?_⟩⟩
  · intro b hb
    simp only [patchEngine, List.mem_singleton] at hb
    subst hb
    refine ⟨?_, ?_⟩
    · intro v hv
      simp [nodesOf] at hv
      omega
    · intro i h; simp at h; subst h; simp
  · rintro ⟨h1, h2⟩
    refine ⟨patchField (r % 5), _, List.mem_singleton.2 rfl, r / 5, by omega, r % 5, r % 5, ?_, by omega, rfl⟩
    have : r % 5 = 0 ∨ r % 5 = 1 ∨ r % 5 = 2 ∨ r % 5 = 3 := by omega
    rcases this with h | h | h | h <;> rw [h] <;> rfl
  · rintro ⟨v, b, hb, d, hd, j, node, hj, hx, -⟩
    simp only [patchEngine, List.mem_singleton] at hb
    subst hb
    have := hmod d j node hj
    omega
  · rintro x v ⟨b, hb, d, hd, j, node, hj, hx, hv⟩
    simp only [patchEngine, List.mem_singleton] at hb
    subst hb
    have := hmod d j node hj
    rw [hv]
    simp only [patchField]
    congr 4 <;> omega

/-- The hypotheses of `C86_static` are met, and the interior node moves by `1 + 2 · 1 + 3 · ½`. -/
example : ∃ solver, solverInit (fun _ A => A) patchEngine.cls patchEngine.kind patchEngine.ops
      patchEngine.boundaries 0 false 1 = .ok solver ∧
    ∀ (V : Type) (initial : ℕ → ℕ → ℚ) (products : List ℕ) (store : ProductStore ℚ V) (s : State ℚ)
      (sim : Simulation ℚ V), patchEngine.staticSolve initial products solver store = .ok (s, sim) →
      ∀ r < 10, State.flatten patchEngine.grid s.displacement r = patchField r := by
  have held : ∀ p < 5, Held patchElements
      (fun q => q < 5 ∧ (q < 10 ∧ q % 5 < 4) ∧ (5 + q < 10 ∧ (5 + q) % 5 < 4)) p := by
    have hf : ∀ p < 4, Held patchElements
        (fun q => q < 5 ∧ (q < 10 ∧ q % 5 < 4) ∧ (5 + q < 10 ∧ (5 + q) % 5 < 4)) p :=
      fun p hp => .fixed p ⟨by omega, by omega, by omega⟩
    have h4 : Held patchElements
        (fun q => q < 5 ∧ (q < 10 ∧ q % 5 < 4) ∧ (5 + q < 10 ∧ (5 + q) % 5 < 4)) 4 :=
      .triangle [0, 1, 4] (by decide) 0 1 2 (by decide) (by decide) (by decide) (by decide)
        (hf 0 (by omega)) (hf 1 (by omega))
    intro p hp
    by_cases h : p < 4
    · exact hf p h
    · obtain rfl : p = 4 := by omega
      exact h4
  obtain ⟨hb, hd⟩ := patch_data
  have hu := C74_definite 5 2 patchEngine.boundaries ⟨patchEngine.ops.elasticity, fun _ => 0⟩ _ _ hb hd
    (C74_elastic2 patch_valid patch_nondegenerate 2 1 (by norm_num) (by norm_num) _ held)
  refine ⟨_, rfl, fun V initial products store s sim h => ?_⟩
  refine C86_static (c := .StaticDisplacementProblem) patchEngine rfl
    ⟨⟨.static, by decide +kernel, by decide +kernel⟩, Or.inl (by decide +kernel)⟩
    _ _ hb hd (fun _ A => A) 0 false 1 _ rfl ?_ initial products store s sim h rfl rfl patch_valid
    patch_nondegenerate patch_nonOverlapping 2 1 (by norm_num) (by norm_num) rfl held ?_
    (fun _ _ _ => rfl) (fun _ => 1) (fun _ k => if k = 0 then 2 else 3) patchField ?_ (fun _ _ _ => rfl)
  · intro S guess h1 h2
    change Solves 10 S.system (exactSolution 10 S.system)
    rw [h1]
    exact exactSolution_solves 10 _ hu
  · intro p hp hbn
    change p < 5 at hp
    have h4 : p ≠ 4 := by
      rintro rfl
      exact absurd hbn (by decide)
    change (p < 10 ∧ p % 5 < 4) ∧ (5 + p < 10 ∧ (5 + p) % 5 < 4)
    exact ⟨⟨by omega, by omega⟩, by omega, by omega⟩
  · intro a ha p hp
    change p < 5 at hp
    change component 5 patchField a p = _
    simp only [component, patchField, block_mod a hp, Finset.sum_range_succ, Finset.sum_range_zero]
    norm_num

end Conmech
