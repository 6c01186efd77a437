import Verif.Props.Cost
import Verif.Props.Schur
import Verif.Props.Solvers
/-!
C58: constructing solvers without a contact law. C66: the condensed and the full method minimise the
same functional. C67: what contact laws of scalar problems are given.
-/
namespace Conmech
open Spec

section
variable {K : Type _} [Field K]

/-- C58. The direct solver does not need a contact law: the linear system is solved. -/
theorem C58_direct_partial (kind : StatementKind) (dimensionOut dimensionIn : ℕ) :
    directInit (none : Option (ContactLaw K)) = .ok .linear ∧
    constructSolver .direct kind dimensionOut dimensionIn (none : Option (ContactLaw K)) = .ok () :=
  ⟨rfl, rfl⟩

/-- C58, violated. No other solver can be constructed without a contact law, whatever the statement;
the check for `None` in `Optimization.__init__` comes too late. -/
theorem C58_optimization_wrong (cls : SolverClass) (h : cls ≠ .direct) (kind : StatementKind)
    (dimensionOut dimensionIn : ℕ) :
    constructSolver cls kind dimensionOut dimensionIn (none : Option (ContactLaw K)) =
      .error (.mk "potential_normal_direction") := by
  cases cls <;> first | exact absurd rfl h | rfl

/-- C58, violated. So for every problem and every solver registered for it, construction without
contact law succeeds exactly for the direct one; for quasistatic problems it never does. -/
theorem C58_registered_wrong (c : ProblemClass) (cls : SolverClass) (kind : StatementKind)
    (h : Registered c cls kind) (dimensionOut dimensionIn : ℕ) :
    (constructSolver cls kind dimensionOut dimensionIn (none : Option (ContactLaw K)) = .ok () ↔
      cls = .direct) ∧
    ((dynamismOf c = .ok .quasistatic ∨ dynamismOf c = .ok .quasistaticRelaxation) →
      constructSolver cls kind dimensionOut dimensionIn (none : Option (ContactLaw K)) ≠ .ok ()) := by
  have h1 : constructSolver cls kind dimensionOut dimensionIn (none : Option (ContactLaw K)) = .ok () ↔
      cls = .direct := by
    constructor
    · intro h2
      by_contra hne
      rw [C58_optimization_wrong cls hne] at h2
      cases h2
    · rintro rfl; rfl
  refine ⟨h1, fun hq hok => ?_⟩
  have hd := h1.1 hok
  subst hd
  obtain ⟨⟨d, hd, e, he, hde, hcls⟩, _⟩ := h
  have key : ∀ e ∈ conmechRegistrations, e.2.2 = SolverClass.direct →
      Dynamism.quasistatic ∉ e.1.types ∧ Dynamism.quasistaticRelaxation ∉ e.1.types := by
    decide +kernel
  obtain ⟨k1, k2⟩ := key e he hcls
  rcases hq with hq | hq <;> rw [hd] at hq <;> have := Except.ok.inj hq <;> subst this
  · exact k1 hde
  · exact k2 hde

/-- C58. With a law that has the two potentials every optimising solver is constructed, and what is
minimised uses the potentials and bounds of the law with the dimensions of the statement. The
exceptions are interior contact in wave problems and Poisson problems (where bounds and friction are
ignored). -/
theorem C58_with_law (kind : StatementKind) (dimensionOut dimensionIn : ℕ) (l : ContactLaw K)
    (p : Condition K K) (t : Condition K (List K)) (hp : l.potentialNormal = some p)
    (ht : l.potentialTangential = some t) :
    ∃ init, optimizationInit kind dimensionOut dimensionIn (some l) = .ok init ∧
      (kind ≠ .staticPoisson → (kind ≠ .wave ∨ l.interior = false) →
        init.loss = .cost ⟨p.njit 0, l.normalBound.njit 1, t.njit 0, l.tangentialBound.njit 1⟩
          dimensionOut dimensionIn) ∧
      (kind = .staticPoisson →
        init.loss = .cost ⟨p.njit 0, fun _ _ _ => 1, fun _ _ _ => 0, fun _ _ _ => 1⟩
          dimensionOut dimensionIn) ∧
      (kind = .wave → l.interior = true → init.loss = .interior (p.njit 0)) ∧
      init.subgradient = l.subderivativeNormal.map fun sub =>
        ⟨sub.njit 0, fun _ _ _ => 1, fun _ _ _ => 0, fun _ _ _ => 1⟩ := by
  unfold optimizationInit
  simp only [readAttribute, hp, ht, bind, Except.bind, pure, Except.pure, Option.map_some,
    Option.bind_some]
  refine ⟨_, rfl, ?_, ?_, ?_, ?_⟩
  · intro h1 h2
    have h3 : ¬ (kind = .wave ∧ some l.interior = some true) := by
      rintro ⟨h3, h4⟩
      rcases h2 with h2 | h2
      · exact h2 h3
      · rw [h2] at h4; cases h4
    simp only [if_neg h1, if_neg h3]
    rfl
  · intro h1
    simp only [if_pos h1]
    rfl
  · intro h1 h2
    have h3 : ¬ kind = .staticPoisson := by rw [h1]; decide
    have h4 : kind = .wave ∧ some l.interior = some true := ⟨h1, by rw [h2]⟩
    simp only [if_neg h3, if_pos h4]
  · rfl

/-- C58. A law without potentials cannot be used by the optimising solvers, one without subderivative
not by the direct one. -/
theorem C58_attributes (kind : StatementKind) (dimensionOut dimensionIn : ℕ) (l : ContactLaw K) :
    ((∃ init, optimizationInit kind dimensionOut dimensionIn (some l) = .ok init) ↔
      l.potentialNormal.isSome ∧ l.potentialTangential.isSome) ∧
    ((∃ init, directInit (some l) = .ok init) ↔ l.subderivativeNormal.isSome) := by
  constructor
  · constructor
    · rintro ⟨init, h⟩
      unfold optimizationInit at h
      simp only [readAttribute, bind, Except.bind] at h
      cases hp : l.potentialNormal with
      | none => rw [hp] at h; cases h
      | some p =>
        cases ht : l.potentialTangential with
        | none => rw [hp, ht] at h; cases h
        | some t => exact ⟨rfl, rfl⟩
    · rintro ⟨h1, h2⟩
      obtain ⟨p, hp⟩ := Option.isSome_iff_exists.1 h1
      obtain ⟨t, ht⟩ := Option.isSome_iff_exists.1 h2
      obtain ⟨init, hi, _⟩ := C58_with_law kind dimensionOut dimensionIn l p t hp ht
      exact ⟨init, hi⟩
  · unfold directInit
    simp only [readAttribute, bind, Except.bind, pure, Except.pure]
    cases l.subderivativeNormal with
    | none => simp
    | some jn => cases l.generalContact <;> simp

/-- C58. What the direct solver takes from a law: the general contact condition if the law has one (a
function as it is, a number as the constant, `None` as no contact at all), otherwise the equation made
from the normal subderivative. -/
theorem C58_direct_law (l : ContactLaw K) (jn : Condition K K) (h : l.subderivativeNormal = some jn) :
    (l.generalContact = none → directInit (some l) = .ok (.equation jn)) ∧
    (∀ f, l.generalContact = some (.function f) → directInit (some l) = .ok (.general f)) ∧
    (∀ r, l.generalContact = some (.number r) → directInit (some l) = .ok (.general fun _ _ _ => r)) ∧
    (l.generalContact = some .missing → directInit (some l) = .ok (.general fun _ _ _ => 0)) := by
  refine ⟨fun hg => ?_, fun f hg => ?_, fun r hg => ?_, fun hg => ?_⟩ <;>
    simp [directInit, readAttribute, h, hg, bind, Except.bind, pure, Except.pure, Condition.njit]

/-- C58. All laws of the package can be used with every solver. -/
theorem C58_package_laws [LinearOrder K] (cls : SolverClass) (kind : StatementKind)
    (dimensionOut dimensionIn : ℕ) (a b c : K) (interior : Bool) (l : ContactLaw K)
    (hl : l = slopeLaw a ∨ l = constLaw a ∨ l = dampedLaw a b c interior) :
    constructSolver cls kind dimensionOut dimensionIn (some l) = .ok () := by
  have h1 : l.potentialNormal.isSome ∧ l.potentialTangential.isSome ∧ l.subderivativeNormal.isSome := by
    rcases hl with rfl | rfl | rfl <;> exact ⟨rfl, rfl, rfl⟩
  obtain ⟨i, hi⟩ := (C58_attributes kind dimensionOut dimensionIn l).1.2 ⟨h1.1, h1.2.1⟩
  obtain ⟨j, hj⟩ := (C58_attributes kind dimensionOut dimensionIn l).2.2 h1.2.2
  cases cls <;> simp [constructSolver, hi, hj, Except.map]

example : Registered .StaticDisplacementProblem .staticSchur .staticDisplacement ∧
    Registered .QuasistaticDisplacementProblem .quasistaticGlobal .quasistaticVelocity := by
  refine ⟨⟨⟨.static, by decide +kernel, ?_⟩, Or.inl (by decide +kernel)⟩,
    ⟨.quasistatic, by decide +kernel, ?_⟩, Or.inl (by decide +kernel)⟩ <;> decide +kernel

/-! ### Condensed and full method -/

/-- The contact cost only depends on the field, not on how it is split into unknowns and old values. -/
theorem C66_same_field (sqrt : K → K) (c : Conditions K) (d d' : ContactData K)
    (hd : d' = { d with old := d'.old }) (var var' : Flat K) (v : ℕ → ℕ → K) (N : ℕ)
    (h : Represents d.variableDimension var d.old v N)
    (h' : Represents d.variableDimension var' d'.old v N)
    (hn : ∀ s ∈ d.surfaces, ∀ node ∈ s.edge, node < N) :
    contactCostFunctional sqrt c d var = contactCostFunctional sqrt c d' var' := by
  rw [hd, contactCostFunctional_eq, contactCostFunctional_eq]
  congr 1
  refine List.map_congr_left fun s hs => ?_
  unfold surfaceCost
  refine quadrature_congr c h.positive _ _ _ _ _ _ fun node hnode i hi => ?_
  rw [represents_value h (hn s hs node hnode) hi, represents_value h' (hn s hs node hnode) hi]

end

section order
variable {K : Type _} [Field K] [LinearOrder K] [IsStrictOrderedRing K]

/-- C66. If all nodes of the contact surfaces are contact nodes, then a minimiser of the condensed
cost, completed by `_solve_impl`, minimises the full cost. -/
theorem C66_condensed_partial (inv : ℕ → (ℕ → ℕ → K) → ℕ → ℕ → K) (hinv : InvContract inv)
    (S : System K) (N C dim : ℕ) (hC : C ≤ N) (hd : dim = 1 ∨ dim = 2) (B : ℕ → ℕ → K)
    (hB : FreeBlockInverse N C dim S.lhs B)
    (hA : ∀ r < dim * N, ∀ s < dim * N, S.lhs r s = S.lhs s r)
    (hpos : ∀ x : ℕ → K, (∀ d < dim, ∀ i < C, x (d * N + i) = 0) → 0 ≤ quad (dim * N) S.lhs x)
    (sqrt : K → K) (c : Conditions K) (d : ContactData K) (hdim : d.variableDimension = dim)
    (hn : ∀ s ∈ d.surfaces, ∀ node ∈ s.edge, node < C)
    (minimise : (ℕ → ℕ → K) → (ℕ → K) → (ℕ → K) → ℕ → K) (len : ℕ) (guess : ℕ → K) :
    let s := SchurSolver.init inv N C dim false S
    (∀ yc, costFunctional sqrt c d (dim * C) s.matrices.boundary s.nodeForces
        ⟨dim * C, minimise s.matrices.boundary s.nodeForces (s.truncateFreeNodes len guess)⟩ ≤
      costFunctional sqrt c d (dim * C) s.matrices.boundary s.nodeForces ⟨dim * C, yc⟩) →
    ∀ y, costFunctional sqrt c d (dim * N) S.lhs S.rhs ⟨dim * N, s.solveImpl minimise len guess⟩ ≤
      costFunctional sqrt c d (dim * N) S.lhs S.rhs ⟨dim * N, y⟩ := by
  intro s hmin y
  have h0 : 0 < dim := by omega
  have hφ : ∀ xc x, IsContactPart N C dim xc x →
      contactCostFunctional sqrt c d ⟨dim * C, xc⟩ = contactCostFunctional sqrt c d ⟨dim * N, x⟩ := by
    intro xc x hx
    rw [contactCostFunctional_eq, contactCostFunctional_eq]
    congr 1
    refine List.map_congr_left fun s hs => ?_
    unfold surfaceCost
    rw [hdim]
    refine quadrature_congr c h0 _ _ _ _ _ _ fun node hnode i hi => ?_
    have h1 := hn s hs node hnode
    unfold nodeValue
    simp only [Nat.mul_div_cancel_left _ h0]
    rw [if_pos h1, if_pos (lt_of_lt_of_le h1 hC)]
    exact hx i hi node h1
  have key := C19_recovered_minimises inv hinv S N C dim hC hd B hB hA hpos
    (fun x => contactCostFunctional sqrt c d ⟨dim * N, x⟩)
    (fun x => contactCostFunctional sqrt c d ⟨dim * C, x⟩) hφ minimise len guess
  have e1 : ∀ xc : ℕ → K, costFunctional sqrt c d (dim * C) s.matrices.boundary s.nodeForces
      ⟨dim * C, xc⟩ = energy (dim * C) ⟨s.matrices.boundary, s.nodeForces⟩ xc +
        contactCostFunctional sqrt c d ⟨dim * C, xc⟩ := fun xc =>
    C48_energy sqrt c d (dim * C) ⟨s.matrices.boundary, s.nodeForces⟩ ⟨dim * C, xc⟩
  have e2 : ∀ x : ℕ → K, costFunctional sqrt c d (dim * N) S.lhs S.rhs ⟨dim * N, x⟩ =
      energy (dim * N) S x + contactCostFunctional sqrt c d ⟨dim * N, x⟩ := fun x =>
    C48_energy sqrt c d (dim * N) S ⟨dim * N, x⟩
  simp only [e1] at hmin
  rw [e2, e2]
  exact key hmin y

end order

/-- C66, violated. In a static problem the old values are zero. On a contact edge from a contact node
to a Dirichlet node with prescribed displacement (0, -3), the condensed method takes the displacement
of the Dirichlet node to be zero: for the same field the two methods have different contact costs. -/
theorem C66_dirichlet_wrong :
    let law := makeConditions (.function (slopePotential (10 : ℚ))) unitBound zeroTangential unitBound
    let field : ℕ → ℕ → ℚ := fun _ i => if i = 1 then -3 else 0
    let d := exampleData ⟨4, fun _ => 0⟩ ⟨4, fun _ => 0⟩
    let full : Flat ℚ := ⟨4, fun k => if 2 ≤ k then -3 else 0⟩
    let condensed : Flat ℚ := ⟨2, fun k => if 1 ≤ k then -3 else 0⟩
    Represents 2 full ⟨4, fun _ => 0⟩ field 2 ∧
    (∀ i < 2, condensed.get (i * 1 + 0) = field 0 i) ∧
    contactCostFunctional (fun x : ℚ => x / 2) law d full = 90 ∧
    contactCostFunctional (fun x : ℚ => x / 2) law d condensed ≠ 90 := by
  refine ⟨⟨by norm_num, 2, by norm_num, ?_, ?_⟩, ?_, ?_, ?_⟩
  · decide +kernel
  · intro i _ node h1 h2; omega
  · decide +kernel
  · decide +kernel
  · decide +kernel

/-! ### Scalar problems -/

section
variable {K : Type _} [Field K]

/-- What a law of a scalar problem on a plane mesh is given: the field itself, but the static
displacement multiplied by the sum of the coordinates of the normal. -/
theorem C67_scalar (sqrt : K → K) (c : Conditions K) (d : ContactData K) (var : Flat K)
    (v w : ℕ → ℕ → K) (N : ℕ) (hvd : d.variableDimension = 1) (hpd : d.problemDimension = 1)
    (hmd : d.meshDimension = 2) (hv : Represents 1 var d.old v N)
    (hw : Represents 1 d.staticDisplacement d.staticDisplacement w N)
    (hn : ∀ s ∈ d.surfaces, ∀ node ∈ s.edge, node < N) :
    contactCostFunctional sqrt c d var = (d.surfaces.map fun s =>
      let static := meanOver s.edge w 0
      let sn := static * (s.normal 0 + s.normal 1)
      quadrature s.edge (surfaceLength sqrt d.nodes s.edge)
        (fun x => c.normalBound (x 0) sn d.dt * c.normal (x 0) sn d.dt +
          c.tangentialBound (x 0) sn d.dt *
            c.tangential [] [static - sn * s.normal 0, static - sn * s.normal 1] d.dt) v).sum := by
  rw [contactCostFunctional_eq]
  congr 1
  refine List.map_congr_left fun s hs => ?_
  unfold surfaceCost
  have hm : interpolateNodeBetween s.edge d.staticDisplacement d.staticDisplacement 1 0 =
      meanOver s.edge w 0 := by
    rw [interpolate_eq]
    exact meanOver_congr _ fun node hnode => represents_value hw (hn s hs node hnode) (by omega)
  have h1 : staticN d s = meanOver s.edge w 0 * (s.normal 0 + s.normal 1) := by
    unfold staticN staticNormalPart
    rw [if_pos hpd, hmd, hpd, hm]
    simp [Finset.sum_range_succ, mul_add]
  have h2 : staticT d s = [meanOver s.edge w 0 - meanOver s.edge w 0 * (s.normal 0 + s.normal 1) * s.normal 0,
      meanOver s.edge w 0 - meanOver s.edge w 0 * (s.normal 0 + s.normal 1) * s.normal 1] := by
    have : staticT d s = (List.range 2).map fun i => meanOver s.edge w 0 - staticN d s * s.normal i := by
      unfold staticT staticTangentialPart
      rw [if_pos hpd, hmd]
      refine List.map_congr_left fun i _ => ?_
      rw [hpd, hm]
      unfold staticN
      rw [hpd, hmd]
    rw [this, h1]
    rfl
  rw [h1, h2, hvd, quadrature_congr c (by omega) _ _ _ _ _ _ (w := v) fun node hnode i hi =>
    represents_value hv (hn s hs node hnode) hi]
  rfl

/-- C67. The law is given the static displacement itself where the coordinates of the normal sum up to
one, for instance on a side with normal (1, 0) or (0, 1). -/
theorem C67_positive_side_partial (sqrt : K → K) (c : Conditions K) (d : ContactData K) (var : Flat K)
    (v w : ℕ → ℕ → K) (N : ℕ) (hvd : d.variableDimension = 1) (hpd : d.problemDimension = 1)
    (hmd : d.meshDimension = 2) (hv : Represents 1 var d.old v N)
    (hw : Represents 1 d.staticDisplacement d.staticDisplacement w N)
    (hn : ∀ s ∈ d.surfaces, ∀ node ∈ s.edge, node < N)
    (hside : ∀ s ∈ d.surfaces, s.normal 0 + s.normal 1 = 1)
    (ht : ∀ a b dt, c.tangential a b dt = 0) :
    contactCostFunctional sqrt c d var = (d.surfaces.map fun s =>
      quadrature s.edge (surfaceLength sqrt d.nodes s.edge)
        (fun x => c.normalBound (x 0) (meanOver s.edge w 0) d.dt *
          c.normal (x 0) (meanOver s.edge w 0) d.dt) v).sum := by
  rw [C67_scalar sqrt c d var v w N hvd hpd hmd hv hw hn]
  congr 1
  refine List.map_congr_left fun s hs => ?_
  simp only [hside s hs, mul_one, ht, mul_zero, add_zero]

end

/-- C67, violated. A scalar problem with a static displacement of two everywhere, on a side with
normal (0, -1): an undamped law with obstacle level one does not see any contact, although the
displacement is beyond the obstacle. On the opposite side it does. -/
theorem C67_negative_side_wrong :
    let law : Conditions ℚ := makeConditions (.function (dampedPotential 1 5 0))
      unitBound zeroTangential unitBound
    let d : ContactData ℚ := { exampleData ⟨2, fun _ => 0⟩ ⟨2, fun _ => 2⟩ with
      variableDimension := 1, problemDimension := 1 }
    let opposite : ContactData ℚ :=
      { d with surfaces := [⟨[0, 1], fun i => if i = 1 then 1 else 0⟩] }
    contactCostFunctional (fun x : ℚ => x / 2) law d ⟨2, fun _ => 0⟩ = 0 ∧
    contactCostFunctional (fun x : ℚ => x / 2) law opposite ⟨2, fun _ => 0⟩ = 10 := by
  decide +kernel

end Conmech
