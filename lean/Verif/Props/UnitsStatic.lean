import Verif.Props.Units
import Verif.Props.CarriedStatic
/-!
C125 for static problems.
-/
namespace Conmech
open Spec

section
variable {K : Type} [Field K] [LinearOrder K] [IsStrictOrderedRing K]

omit [LinearOrder K] [IsStrictOrderedRing K] in
/-- Solutions of scaled equations. -/
theorem scaled_balance {n : ℕ} {D : ℕ → Prop} {A A' : ℕ → ℕ → K} {a b : K} (ha : a ≠ 0) (hb : b ≠ 0)
    (hA : ∀ r s, A' r s = a * A r s) {g g' f f' u u' : ℕ → K} (hf : ∀ r < n, ¬ D r → f' r = a * b * f r)
    (hg : ∀ r < n, D r → g' r = b * g r) (hdef : DefiniteOn n D A) (h : BalancedField n A D g f u)
    (h' : BalancedField n A' D g' f' u') : ∀ r < n, u' r = b * u r := by
  classical
  have key := definite_unique (x := fun r => b⁻¹ * u' r) (y := u) (f := f) hdef
    (fun r hr hD => by
      beta_reduce
      rw [h'.values r hr hD, hg r hr hD, h.values r hr hD]
      field_simp)
    (fun r hr hD => by
      have := h'.balance r hr hD
      rw [scaled_act (A := A) (x := fun i => b⁻¹ * u' i) (a := a) (b := b) (fun r _ s _ => hA r s)
        (fun i _ => by field_simp) hr, hf r hr hD] at this
      exact mul_left_cancel₀ (mul_ne_zero ha hb) this) h.balance
  intro r hr
  have := key r hr
  rw [← this]
  field_simp

/-- C125: the displacement returned for a static problem of a plane body held by its supports, in other units. Time does
not matter. -/
theorem C125_static2 {N : ℕ} {elements : List (List ℕ)} {nodes : ℕ → ℕ → K} (hv : ValidElements 2 N elements)
    (hn : Nondegenerate2 elements nodes) (c : UnitChange K) (hl : c.length ≠ 0) (hτ : c.time ≠ 0) (hm : c.mass ≠ 0)
    (mu lam : K) (hmu : 0 < mu) (hlam : 0 ≤ lam) (D : ℕ → Prop)
    (hh : ∀ p < N, Held elements (fun q => q < N ∧ D q ∧ D (N + q)) p) (e e' : Engine K)
    (hb : Spec.PlaneBody e N elements nodes mu lam)
    (hb' : Spec.PlaneBody e' N elements (c.nodes 2 nodes) (c.modulus 2 * mu) (c.modulus 2 * lam)) (g g' u u' : ℕ → K)
    (hf : ∀ r < 2 * N, e'.ops.force 0 r = c.force * e.ops.force 0 r) (hg : ∀ r < 2 * N, D r → g' r = c.length * g r)
    (hu : StaticResult e D g u) (hu' : StaticResult e' D g' u') : ∀ r < 2 * N, u' r = c.length * u r := by
  classical
  refine scaled_balance (a := c.mass / c.time ^ 2) (div_ne_zero hm (pow_ne_zero _ hτ)) hl
    (fun r s => (C125_operators2 hn c hl hτ 0 mu lam r s).2.1) (fun r hr _ => ?_) hg
    (C74_elastic2 hv hn mu lam hmu hlam D hh) (plane_equilibrium hu hb) (plane_equilibrium hu' hb')
  rw [hf r hr, UnitChange.force]
  ring

end

/-! ### Example -/

/-- The quadrilateral of `Superposition.lean` with these nodes and coefficients. -/
noncomputable def loadedOf (nodes : ℕ → ℕ → ℚ) (mu lam : ℚ) (F : ℕ → ℚ) (g : ℚ) : Engine ℚ where
  grid := { nodesCount := 4, dimension := 2, nodes := nodes }
  cls := .staticGlobal
  kind := .staticDisplacement
  ops := { quadrilateralOps with
    elasticity := Plane.constitutive 4 (basicMatrices2 exampleMesh2 nodes).W mu lam
    force := fun _ => F }
  boundaries := [⟨.list [0, 1], fun _ => g⟩]
  solve := fun s _ => exactSolution 8 s.system

theorem loadedOf_result {nodes : ℕ → ℕ → ℚ} (hn : Nondegenerate2 exampleMesh2 nodes) (mu lam : ℚ) (hmu : 0 < mu)
    (hlam : 0 ≤ lam) (F : ℕ → ℚ) (g : ℚ) : Spec.PlaneBody (loadedOf nodes mu lam F g) 4 exampleMesh2 nodes mu lam ∧
    ∃ u, StaticResult (loadedOf nodes mu lam F g) (fun r => r < 4 * 2 ∧ r % 4 < 2) (fun _ => g) u := by
  obtain ⟨hb, hd⟩ := supported_valid g 2 le_rfl
  have hreg : Registered .StaticDisplacementProblem .staticGlobal .staticDisplacement :=
    ⟨⟨.static, by decide +kernel, by decide +kernel⟩, Or.inl (by decide +kernel)⟩
  have hu := C74_definite 4 2 (loadedOf nodes mu lam F g).boundaries ⟨(loadedOf nodes mu lam F g).ops.elasticity, F⟩
    _ _ hb hd (C74_elastic2 exampleMesh2_valid hn mu lam hmu hlam _ loaded_held)
  refine ⟨⟨rfl, rfl, rfl⟩, _, .StaticDisplacementProblem, fun _ A => A, 0, false, 1, _, fun _ _ => 0, [],
    ⟨fun _ => ⟨"", none, []⟩, 0⟩, _, _, rfl,
    hreg, hb, hd, rfl, ?_, rfl, rfl⟩
  intro S guess h1 h2
  change Solves 8 S.system (exactSolution 8 S.system)
  rw [h1]
  exact exactSolution_solves 8 _ hu

/-- The quadrilateral in metres and kilograms and in centimetres and grams, with moved supports, under any loads. -/
example (F : ℕ → ℚ) (g : ℚ) (c : UnitChange ℚ) (hc : c = ⟨100, 1, 1000⟩) : ∃ u u',
    StaticResult (loadedOf exampleNodes2 2 1 F g) (fun r => r < 4 * 2 ∧ r % 4 < 2) (fun _ => g) u ∧
    StaticResult (loadedOf (c.nodes 2 exampleNodes2) (c.modulus 2 * 2) (c.modulus 2 * 1)
      (fun r => c.force * F r) (c.length * g)) (fun r => r < 4 * 2 ∧ r % 4 < 2) (fun _ => c.length * g) u' ∧
    ∀ r < 2 * 4, u' r = c.length * u r := by
  have hl : c.length ≠ 0 := by rw [hc]; norm_num
  have hm : c.mass ≠ 0 := by rw [hc]; norm_num
  have hτ : c.time ≠ 0 := by rw [hc]; norm_num
  have hp : 0 < c.modulus 2 := by rw [hc]; norm_num [UnitChange.modulus, UnitChange.force]
  have hn' : Nondegenerate2 exampleMesh2 (c.nodes 2 exampleNodes2) :=
    nondegenerate2_similar exampleMesh2_nondegenerate (identity_orthogonal 2) hl fun _ => 0
  obtain ⟨b₁, u₁, h₁⟩ := loadedOf_result exampleMesh2_nondegenerate 2 1 (by norm_num) (by norm_num) F g
  obtain ⟨b₂, u₂, h₂⟩ := loadedOf_result hn' (c.modulus 2 * 2) (c.modulus 2 * 1) (by positivity) (by positivity)
    (fun r => c.force * F r) (c.length * g)
  exact ⟨u₁, u₂, h₁, h₂, C125_static2 exampleMesh2_valid exampleMesh2_nondegenerate c hl hτ hm 2 1 (by norm_num)
    (by norm_num) _ loaded_held _ _ b₁ b₂ _ _ u₁ u₂ (fun _ _ => rfl) (fun _ _ _ => rfl) h₁ h₂⟩

end Conmech
