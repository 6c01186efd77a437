import Verif.Props.SpaceStatic
import Verif.Props.Motions
/-!
C89 for bodies in space.
-/
namespace Conmech
open Spec

section
variable {N : ℕ} {elements : List (List ℕ)} {nodes : ℕ → ℕ → ℝ}

/-- C89 in space: a static problem of a clamped body with a convex contact law has exactly one solution if
`0 < λ ≤ μ`. -/
theorem C89_space (hv : ValidElements 3 N elements) (hn : Nondegenerate3 elements nodes)
    (mu lam : ℝ) (hlam : 0 < lam) (hle : lam ≤ mu)
    (ops : Operators ℝ) (hN : ops.nodesCount = N) (hdim : ops.dimension = 3)
    (hel : ops.elasticity = Space.constitutive N (basicMatrices3 elements nodes).W mu lam)
    (bs : List (CondBoundary ℝ)) (D : ℕ → Prop) [DecidablePred D] (g : ℕ → ℝ)
    (hb : ValidBoundaries N bs) (hd : DirichletData N 3 bs D g)
    (hh : ∀ p < N, HeldInSpace elements (Clamped N D) p) (var : Variables ℝ) (S : System ℝ)
    (h : StatementKind.staticDisplacement.update ops bs var = .ok S)
    (c : Conditions ℝ) (d : ContactData ℝ) (hd3 : d.variableDimension = 3)
    (hg : ∀ s ∈ d.surfaces, ∀ sn st, ConvexVec (Spec.density c d.variableDimension s.normal sn st d.dt)) :
    UniqueMinimiser (3 * N) fun x => costFunctional Real.sqrt c d (3 * N) S.lhs S.rhs ⟨3 * N, x⟩ := by
  subst hN
  have o2 := C120_nonneg_partial hv hn mu lam hlam.le hle
  have hdef := C120_definite_partial hv hn mu lam hlam hle D hh
  rw [← hel] at o2 hdef
  refine C89_unique_minimiser c d (by omega) hg (3 * ops.nodesCount) S ?_
  refine update_positive .staticDisplacement ops bs var S 3 hdim D g hb hd (fun lhs hl => ?_)
    (fun lhs hl => ?_) h
  · obtain rfl : ops.elasticity = lhs := Except.ok.inj hl
    exact ⟨o2.nonneg⟩
  · obtain rfl : ops.elasticity = lhs := Except.ok.inj hl
    exact hdef

/-- C89 in space: the energy of the difference of two solutions is at most the work of the difference of the
loads, so that the solution depends continuously on them. -/
theorem C89_space_stable (hv : ValidElements 3 N elements) (hn : Nondegenerate3 elements nodes)
    (mu lam : ℝ) (hlam : 0 < lam) (hle : lam ≤ mu)
    (ops : Operators ℝ) (hN : ops.nodesCount = N) (hdim : ops.dimension = 3)
    (hel : ops.elasticity = Space.constitutive N (basicMatrices3 elements nodes).W mu lam)
    (bs : List (CondBoundary ℝ)) (D : ℕ → Prop) [DecidablePred D] (g : ℕ → ℝ)
    (hb : ValidBoundaries N bs) (hd : DirichletData N 3 bs D g) (f f' : ℝ → ℕ → ℝ)
    (var : Variables ℝ) (S S' : System ℝ)
    (h : StatementKind.staticDisplacement.update { ops with force := f } bs var = .ok S)
    (h' : StatementKind.staticDisplacement.update { ops with force := f' } bs var = .ok S')
    (c : Conditions ℝ) (d : ContactData ℝ)
    (hg : ∀ s ∈ d.surfaces, ∀ sn st, ConvexVec (Spec.density c d.variableDimension s.normal sn st d.dt))
    (x x' : ℕ → ℝ)
    (hx : Minimises (fun y => costFunctional Real.sqrt c d (3 * N) S.lhs S.rhs ⟨3 * N, y⟩) x)
    (hx' : Minimises (fun y => costFunctional Real.sqrt c d (3 * N) S'.lhs S'.rhs ⟨3 * N, y⟩) x') :
    quad (3 * N) S.lhs (fun i => x i - x' i) ≤
      ∑ r ∈ Finset.range (3 * N), (S.rhs r - S'.rhs r) * (x r - x' r) := by
  subst hN
  have hsym := (C120_nonneg_partial hv hn mu lam hlam.le hle).symm
  rw [← hel] at hsym
  obtain ⟨lhs, rhs, h1, -, h3⟩ := update_eliminated _ _ _ _ _ h
  obtain ⟨lhs', rhs', h1', -, h3'⟩ := update_eliminated _ _ _ _ _ h'
  obtain rfl : ops.elasticity = lhs := Except.ok.inj h1
  obtain rfl : ops.elasticity = lhs' := Except.ok.inj h1'
  have e1 : S = applyDirichlet ops.nodesCount 3 bs ⟨ops.elasticity, rhs⟩ := by
    rw [h3]
    exact congrArg (fun k => applyDirichlet ops.nodesCount k bs ⟨ops.elasticity, rhs⟩) hdim
  have e2 : S' = applyDirichlet ops.nodesCount 3 bs ⟨ops.elasticity, rhs'⟩ := by
    rw [h3']
    exact congrArg (fun k => applyDirichlet ops.nodesCount k bs ⟨ops.elasticity, rhs'⟩) hdim
  have hl : S'.lhs = S.lhs := by
    funext r s
    rw [e1, e2, (C14_all_at_once_partial _ _ _ _ D g hb hd r).1 s,
      (C14_all_at_once_partial _ _ _ _ D g hb hd r).1 s]
  rw [hl] at hx'
  refine C89_stable Real.sqrt isSqrt_real c d hg _ S.lhs ?_ S.rhs S'.rhs x x' hx hx'
  rw [e1]
  exact C13_symmetric ops.nodesCount 3 bs _ D g hb hd hsym

end

/-- The base of the column is clamped, over the reals. -/
def columnSupport : List (CondBoundary ℝ) := [⟨.list [0, 1, 2], fun _ => 0⟩]

theorem columnSupport_data (k : ℕ) : ValidBoundaries 9 columnSupport ∧
    DirichletData 9 k columnSupport (fun r => r < k * 9 ∧ r % 9 < 3) fun _ => 0 := by
  have hmod : ∀ j node : ℕ, ([0, 1, 2] : List ℕ)[j]? = some node → node = j ∧ j < 3 := by
    intro j node h
    obtain ⟨hj, h⟩ := List.getElem?_eq_some_iff.1 h
    simp only [List.length_cons, List.length_nil] at hj
    interval_cases j <;> simp at h <;> omega
  refine ⟨?_, fun r => ⟨?_, ?_⟩, ?_⟩
  · intro b hb
    simp only [columnSupport, List.mem_singleton] at hb
    subst hb
    refine ⟨fun v hv => ?_, fun i hi => ?_⟩
    · have hv : v ∈ ([0, 1, 2] : List ℕ) := hv
      simp at hv; omega
    · cases hi; simp
  · rintro ⟨h1, h2⟩
    refine ⟨0, _, List.mem_singleton.2 rfl, r / 9, by omega, r % 9, r % 9, ?_, by omega, rfl⟩
    have : r % 9 = 0 ∨ r % 9 = 1 ∨ r % 9 = 2 := by omega
    rcases this with h | h | h <;> rw [h] <;> rfl
  · rintro ⟨v, b, hb, d, hd, j, node, hj, hx, -⟩
    simp only [columnSupport, List.mem_singleton] at hb
    subst hb
    have := hmod j node hj
    omega
  · rintro x v ⟨b, hb, d, hd, j, node, hj, hx, hv⟩
    simp only [columnSupport, List.mem_singleton] at hb
    subst hb
    exact hv

/-- The top of the column may touch an obstacle above it. -/
noncomputable def columnContact : ContactData ℝ where
  variableDimension := 3
  problemDimension := 3
  meshDimension := 3
  nodes := columnNodes 2
  surfaces := [⟨[6, 7, 8], fun i => if i = 2 then 1 else 0⟩]
  old := ⟨27, fun _ => 0⟩
  staticDisplacement := ⟨27, fun _ => 0⟩
  dt := 1

/-- The operators of the column. -/
noncomputable def columnOps : Operators ℝ :=
  { hangingOps with
    nodesCount := 9
    dimension := 3
    elasticity := Space.constitutive 9 (basicMatrices3 columnMesh (columnNodes (2 : ℝ))).W 3 1
    force := fun _ r => r }

/-- The hypotheses of `C89_space` are met by the column in contact of the slope law. -/
example : ∃ S, StatementKind.staticDisplacement.update columnOps columnSupport
      ⟨none, none, none, none, none, none, none⟩ = .ok S ∧
    UniqueMinimiser 27 fun x => costFunctional Real.sqrt (frictionless (slopePotential 10)) columnContact 27
      S.lhs S.rhs ⟨27, x⟩ := by
  refine ⟨_, rfl, ?_⟩
  exact C89_space (N := 9) column_valid (column_nondegenerate (2 : ℝ) (by norm_num)) 3 1 (by norm_num)
    (by norm_num) columnOps rfl rfl rfl columnSupport columnBase _ (columnSupport_data 3).1
    (columnSupport_data 3).2 column_held ⟨none, none, none, none, none, none, none⟩ _ rfl
    (frictionless (slopePotential 10)) columnContact rfl (fun s _ sn st =>
      C48_density_convex _ _ _ _ _ _ (C47_convex 10 sn _ (by norm_num)))

end Conmech
