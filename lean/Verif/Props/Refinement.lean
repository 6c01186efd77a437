import Verif.Spec.Refinement
import Verif.Props.Superposition
import Verif.Props.Forces
/-!
C104: refining the mesh never makes a body stiffer.
-/
namespace Conmech
open Spec

section algebra
variable {K : Type} [Field K] [LinearOrder K] [IsStrictOrderedRing K]

/-- C104: let fine fields include the coarse ones (`ext`), with the same energies and the same work of
the loads and with supports that do not move. Then the work of the loads on the fine displacement exceeds
that on the coarse one by the energy of the difference of the two displacements. -/
theorem C104_nested {n n' : ℕ} {A A' : ℕ → ℕ → K} {D D' : ℕ → Prop} {f f' u u' y : ℕ → K}
    (hA' : StoresEnergy n' A') (hq : quad n' A' y = quad n A u)
    (hw : work n' f' y = work n f u) (hy : ∀ r < n', D' r → y r = 0)
    (h : BalancedField n A D (fun _ => 0) f u) (h' : BalancedField n' A' D' (fun _ => 0) f' u') :
    work n' f' u' = work n f u + quad n' A' (fun r => u' r - y r) ∧
    0 ≤ work n f u ∧ work n f u ≤ work n' f' u' := by
  have e1 : work n f u = quad n A u := h.work_eq h.values
  have e2 : work n' f' u' = quad n' A' u' := h'.work_eq h'.values
  have e3 : work n' f' y = bilin n' A' y u' := h'.work_eq hy
  have key : work n' f' u' = work n f u + quad n' A' (fun r => u' r - y r) := by
    rw [quad_eq_bilin n' A' (fun r => u' r - y r), bilin_sub_left, bilin_sub_right, bilin_sub_right,
      bilin_symm n' A' hA'.symm u' y, ← e3, ← quad_eq_bilin, ← quad_eq_bilin, ← e2, hq, ← e1, hw]
    ring
  have h1 := hA'.nonneg fun r => u' r - y r
  refine ⟨key, ?_, by linarith⟩
  rw [e1, ← hq]
  exact hA'.nonneg y
end algebra

section
variable {K : Type} [Field K] [LinearOrder K] [IsStrictOrderedRing K]
variable {N N' : ℕ} {parent : ℕ → ℕ} {nodes nodes' : ℕ → ℕ → K} {elements elements' : List (List ℕ)}

theorem Spec.Refines.areas (h : Refines parent nodes elements nodes' elements') {t : ℕ}
    (ht : t < elements.length) :
    ∑ s ∈ (Finset.range elements'.length).filter (fun s => parent s = t),
      area (vertices nodes' (elements'.getD s [])) = area (vertices nodes (elements.getD t [])) := by
  have := h.integral t ht 1 fun _ => 0
  simp only [integralOn, affineAt, zero_mul, add_zero] at this
  norm_num at this
  exact this

/-- Integrals of functions that are constant on the coarse triangles. -/
theorem Spec.Refines.constants (h : Refines parent nodes elements nodes' elements') (g : ℕ → K) :
    (sumElements elements' fun s e => area (vertices nodes' e) * g (parent s)) =
      sumElements elements fun t e => area (vertices nodes e) * g t := by
  unfold sumElements
  rw [← Finset.sum_fiberwise_of_maps_to (s := Finset.range elements'.length)
    (t := Finset.range elements.length) (g := parent)
    fun s hs => Finset.mem_range.2 (h.parent_lt s (Finset.mem_range.1 hs))]
  refine Finset.sum_congr rfl fun t ht => ?_
  beta_reduce
  rw [← h.areas (Finset.mem_range.1 ht), Finset.sum_mul]
  exact Finset.sum_congr rfl fun s hs => by rw [(Finset.mem_filter.1 hs).2]

omit [LinearOrder K] [IsStrictOrderedRing K] in
theorem isGradient_iff {e : List ℕ} {x G : ℕ → K} :
    IsGradient 2 (vertices nodes e) (valuesOn e x) G ↔ ∃ c, AffineOn nodes e x c G := by
  simp only [IsGradient, AffineOn, affineAt, Finset.sum_range_succ, Finset.sum_range_zero, zero_add]

omit [IsStrictOrderedRing K] in
/-- An inherited field has the gradients of the coarse field. -/
theorem Spec.SameFunction.gradient {x y : ℕ → K} {X : ℕ → ℕ → K}
    (hr : Refines parent nodes elements nodes' elements')
    (h : SameFunction parent nodes elements nodes' elements' x y)
    (hX : FieldGradient 2 elements nodes x X) :
    FieldGradient 2 elements' nodes' y fun s => X (parent s) := by
  intro s hs
  obtain ⟨c, hc⟩ := isGradient_iff.1 (hX (parent s) (hr.parent_lt s hs))
  exact isGradient_iff.2 ⟨c, h s hs c _ hc⟩

/-- Twice the area times the mean value of an inherited field. -/
theorem Spec.SameFunction.integral (hn : Nondegenerate2 elements nodes) {x y : ℕ → K}
    (hr : Refines parent nodes elements nodes' elements')
    (h : SameFunction parent nodes elements nodes' elements' x y) :
    (sumElements elements' fun _ e => area (vertices nodes' e) *
      ((valuesOn e y 0 + valuesOn e y 1 + valuesOn e y 2) / 3)) =
    sumElements elements fun _ e => area (vertices nodes e) *
      ((valuesOn e x 0 + valuesOn e x 1 + valuesOn e x 2) / 3) := by
  obtain ⟨X, hX⟩ := exists_fieldGradient (Plane.allLocal hn) x
  unfold sumElements
  rw [← Finset.sum_fiberwise_of_maps_to (s := Finset.range elements'.length)
    (t := Finset.range elements.length) (g := parent)
    fun s hs => Finset.mem_range.2 (hr.parent_lt s (Finset.mem_range.1 hs))]
  refine Finset.sum_congr rfl fun t ht => ?_
  have ht := Finset.mem_range.1 ht
  obtain ⟨c, hc⟩ := isGradient_iff.1 (hX t ht)
  have := hr.integral t ht c (X t)
  unfold integralOn at this
  beta_reduce
  rw [hc 0 (by omega), hc 1 (by omega), hc 2 (by omega), ← this]
  refine Finset.sum_congr rfl fun s hs => ?_
  obtain ⟨hs', rfl⟩ := Finset.mem_filter.1 hs
  have := h s (Finset.mem_range.1 hs') c _ hc
  rw [this 0 (by omega), this 1 (by omega), this 2 (by omega)]

/-- The work of the lumped areas. -/
theorem lumped_work (hv : ValidElements 2 N elements) (x : ℕ → K) :
    ∑ p ∈ Finset.range N, lumped 2 elements nodes area p * x p =
    sumElements elements fun _ e => area (vertices nodes e) *
      ((valuesOn e x 0 + valuesOn e x 1 + valuesOn e x 2) / 3) := by
  unfold lumped sumElements
  simp only [Finset.sum_mul]
  rw [Finset.sum_comm]
  refine Finset.sum_congr rfl fun t ht => ?_
  rw [Finset.sum_comm]
  have key : ∀ i < 3, ∑ p ∈ Finset.range N, (if (elements.getD t []).getD i 0 = p then
      area (vertices nodes (elements.getD t [])) / ((2 : ℕ) + 1 : K) else 0) * x p =
      area (vertices nodes (elements.getD t [])) / 3 * valuesOn (elements.getD t []) x i := by
    intro i hi
    have hlt := getD_lt hv (getD_mem (Finset.mem_range.1 ht)) hi
    rw [Finset.sum_eq_single ((elements.getD t []).getD i 0)]
    · simp only [if_true, valuesOn]
      norm_num
    · intro p _ hp
      rw [if_neg fun h => hp h.symm, zero_mul]
    · intro h; exact absurd (Finset.mem_range.2 hlt) h
  rw [Finset.sum_congr rfl fun i hi => key i (Finset.mem_range.1 hi)]
  simp only [Finset.sum_range_succ, Finset.sum_range_zero, zero_add]
  ring

/-- The stored energy of an inherited displacement. -/
theorem Spec.Refines.elastic (hr : Refines parent nodes elements nodes' elements')
    (hv : ValidElements 2 N elements) (hn : Nondegenerate2 elements nodes)
    (hv' : ValidElements 2 N' elements') (hn' : Nondegenerate2 elements' nodes') (mu lam : K)
    {x y : ℕ → K}
    (h : ∀ a < 2, SameFunction parent nodes elements nodes' elements' (component N x a) (component N' y a)) :
    quad (2 * N') (Plane.constitutive N' (basicMatrices2 elements' nodes').W mu lam) y =
      quad (2 * N) (Plane.constitutive N (basicMatrices2 elements nodes).W mu lam) x := by
  obtain ⟨X, hX⟩ := exists_vectorGradient (N := N) (Plane.allLocal hn) x
  have hY : VectorGradient 2 N' elements' nodes' y fun s => X (parent s) :=
    fun a ha => (h a ha).gradient hr (hX a ha)
  rw [quad_eq_form, quad_eq_form, C26_hooke hv hn mu lam x x X X hX hX,
    C26_hooke hv' hn' mu lam y y _ _ hY hY]
  exact hr.constants fun t => hooke 2 mu lam (X t) (X t)

/-- The form of the Poisson matrix for an inherited temperature. -/
theorem Spec.Refines.poisson (hr : Refines parent nodes elements nodes' elements')
    (hv : ValidElements 2 N elements) (hn : Nondegenerate2 elements nodes)
    (hv' : ValidElements 2 N' elements') (hn' : Nondegenerate2 elements' nodes') (k : K) {x y : ℕ → K}
    (h : SameFunction parent nodes elements nodes' elements' x y) :
    quad N' (poissonMatrix 2 (basicMatrices2 elements' nodes').W k) y =
      quad N (poissonMatrix 2 (basicMatrices2 elements nodes).W k) x := by
  obtain ⟨X, hX⟩ := exists_fieldGradient (Plane.allLocal hn) x
  have hY := h.gradient hr hX
  rw [quad_eq_form, quad_eq_form, form_poisson, form_poisson]
  congr 1
  refine Finset.sum_congr rfl fun i hi => ?_
  have hi := Finset.mem_range.1 hi
  refine (form_stiff hv' (Plane.allLocal hn') hi hi hY hY).trans
    (Eq.trans ?_ (form_stiff hv (Plane.allLocal hn) hi hi hX hX).symm)
  exact hr.constants fun t => X t i * X t i

/-- The work of the shares of the nodes in the sides. -/
theorem sides_work (len : (ℕ → ℕ → K) → K) {sides : List (List ℕ)} (hs : ValidSides N sides) (x : ℕ → K) :
    ∑ p ∈ Finset.range N, (sides.map fun f => if p ∈ f then len (vertices nodes f) / (2 : ℕ) else 0).sum * x p =
      sideIntegral len nodes sides x := by
  unfold sideIntegral
  induction sides with
  | nil => simp
  | cons f l ih =>
    simp only [List.map_cons, List.sum_cons, add_mul]
    rw [Finset.sum_add_distrib, ih fun f hf => hs f (by simp [hf])]
    congr 1
    obtain ⟨h1, h2, h3⟩ := hs f (by simp)
    match f, h1, h2, h3 with
    | [a, b], _, h2, h3 =>
      have hab : a ≠ b := by simpa using h2
      have ha : a < N := h3 a (by simp)
      have hb : b < N := h3 b (by simp)
      rw [Finset.sum_congr rfl fun p _ => show (if p ∈ [a, b] then len (vertices nodes [a, b]) / ((2 : ℕ) : K)
          else 0) * x p = (if a = p then len (vertices nodes [a, b]) / 2 * x a else 0) +
            (if b = p then len (vertices nodes [a, b]) / 2 * x b else 0) by
        by_cases e1 : a = p
        · subst e1
          simp [hab.symm]
        · by_cases e2 : b = p
          · subst e2
            simp [hab]
          · simp [e1, e2, Ne.symm e1, Ne.symm e2]]
      rw [Finset.sum_add_distrib, Finset.sum_ite_eq, Finset.sum_ite_eq, if_pos (Finset.mem_range.2 ha),
        if_pos (Finset.mem_range.2 hb)]
      simp only [valuesOn, List.getD_cons_zero, List.getD_cons_succ]
      ring

/-- The work of one coordinate of the integrated forces of a constant force `c` per area and a constant
force `q` per length. -/
theorem integrated_coordinate (hv : ValidElements 2 N elements) (hn : Nondegenerate2 elements nodes)
    {sqrt : K → K} {sides : List (List ℕ)} (hs : ValidSides N sides) {c q f : ℕ → K}
    (hf : integrateForces sqrt 2 N (basicMatrices2 elements nodes).volumeAtNodes sides nodes (fun _ => c)
      (fun _ => q) = some f) (a : ℕ) (x : ℕ → K) :
    ∑ p ∈ Finset.range N, f (a * N + p) * x p = (c a * sumElements elements fun _ e =>
      area (vertices nodes e) * ((valuesOn e x 0 + valuesOn e x 1 + valuesOn e x 2) / 3)) +
      q a * sideIntegral (surfaceSize sqrt 2) nodes sides x := by
  obtain ⟨r, hr, hval⟩ := C31_integrate sqrt 2 (Or.inl rfl) nodes N sides
    (basicMatrices2 elements nodes).volumeAtNodes (fun f h => (hs f h).1) (fun _ => c) fun _ => q
  obtain rfl : r = f := Option.some.inj (hr.symm.trans hf)
  rw [← lumped_work hv, ← sides_work _ hs, Finset.mul_sum, Finset.mul_sum, ← Finset.sum_add_distrib]
  refine Finset.sum_congr rfl fun p hp => ?_
  have hp := Finset.mem_range.1 hp
  rw [hval a p hp, (C30_constant_share c a p hp).1 hv hn]
  ring

/-- The work of the integrated forces. -/
theorem integrated_work (hv : ValidElements 2 N elements) (hn : Nondegenerate2 elements nodes)
    {sqrt : K → K} {sides : List (List ℕ)} (hs : ValidSides N sides) {c q f : ℕ → K}
    (hf : integrateForces sqrt 2 N (basicMatrices2 elements nodes).volumeAtNodes sides nodes (fun _ => c)
      (fun _ => q) = some f) (x : ℕ → K) :
    work (2 * N) f x = ∑ a ∈ Finset.range 2, ((c a * sumElements elements fun _ e =>
      area (vertices nodes e) * ((valuesOn e (component N x a) 0 + valuesOn e (component N x a) 1 +
        valuesOn e (component N x a) 2) / 3)) +
      q a * sideIntegral (surfaceSize sqrt 2) nodes sides (component N x a)) := by
  unfold work
  rw [sum_plane, Finset.sum_add_distrib, Finset.sum_range_succ (fun a => _ + _) 1, Finset.sum_range_one,
    ← integrated_coordinate hv hn hs hf 0, ← integrated_coordinate hv hn hs hf 1]
  simp only [component, Nat.zero_mul, Nat.zero_add, Nat.one_mul]

omit [Field K] [LinearOrder K] [IsStrictOrderedRing K] in
theorem component_joined {y : ℕ → ℕ → K} {a p : ℕ} (hp : p < N) :
    (fun r => y (r / N) (r % N)) (a * N + p) = y a p := by
  have h1 : (a * N + p) / N = a := by
    rw [Nat.mul_comm, Nat.mul_add_div (by omega), Nat.div_eq_of_lt hp, Nat.add_zero]
  have h2 : (a * N + p) % N = p := by
    rw [Nat.mul_comm, Nat.mul_add_mod, Nat.mod_eq_of_lt hp]
  simp only [h1, h2]

omit [LinearOrder K] [IsStrictOrderedRing K] in
/-- Fields that agree on the nodes. -/
theorem Spec.SameFunction.congr {x y y' : ℕ → K} (hv' : ValidElements 2 N' elements')
    (h : SameFunction parent nodes elements nodes' elements' x y) (he : ∀ p < N', y' p = y p) :
    SameFunction parent nodes elements nodes' elements' x y' := by
  intro s hs c G hA i hi
  rw [← h s hs c G hA i hi]
  exact he _ (getD_lt hv' (getD_mem hs) hi)

/-- A vector field on the fine mesh from a field on the coarse mesh. -/
theorem Spec.Carries.vector {len : (ℕ → ℕ → K) → K} {m m' : SupportedMesh K}
    (hc : Carries len parent m m') (hv' : ValidElements 2 m'.count m'.elements)
    (hs' : ValidSides m'.count m'.sides)
    {x : ℕ → K} (hx : ∀ a < 2, ∀ p < m.count, m.supported p → x (a * m.count + p) = 0) :
    ∃ y : ℕ → K, (∀ a < 2, SameFunction parent m.nodes m.elements m'.nodes m'.elements
      (component m.count x a) (component m'.count y a)) ∧
      (∀ a < 2, ∀ p < m'.count, m'.supported p → y (a * m'.count + p) = 0) ∧
      ∀ a < 2, sideIntegral len m'.nodes m'.sides (component m'.count y a) =
        sideIntegral len m.nodes m.sides (component m.count x a) := by
  choose y h1 h2 h3 using fun a : Fin 2 => hc (component m.count x a) (hx a a.2)
  let z : ℕ → ℕ → K := fun a => if h : a < 2 then y ⟨a, h⟩ else 0
  have hz : ∀ a (ha : a < 2), ∀ p < m'.count,
      (fun r => z (r / m'.count) (r % m'.count)) (a * m'.count + p) = y ⟨a, ha⟩ p := by
    intro a ha p hp
    refine (component_joined (y := z) hp).trans ?_
    simp only [z, dif_pos ha]
  refine ⟨fun r => z (r / m'.count) (r % m'.count), fun a ha => ?_, fun a ha p hp hS => ?_,
    fun a ha => ?_⟩
  · exact SameFunction.congr hv' (h1 ⟨a, ha⟩) (hz a ha)
  · exact (hz a ha p hp).trans (h2 ⟨a, ha⟩ p hp hS)
  · rw [← h3 ⟨a, ha⟩]
    unfold sideIntegral
    congr 1
    refine List.map_congr_left fun f hf => ?_
    obtain ⟨g1, -, g3⟩ := hs' f hf
    have hg : ∀ i < 2, f.getD i 0 < m'.count := fun i hi => by
      rw [List.getD_eq_getElem _ _ (by omega)]
      exact g3 _ (List.getElem_mem _)
    simp only [valuesOn]
    have e0 := hz a ha _ (hg 0 (by omega))
    have e1 := hz a ha _ (hg 1 (by omega))
    simp only [component] at e0 e1 ⊢
    rw [e0, e1]

/-- Degrees of freedom of held nodes. -/
theorem dof_split {P : ℕ → Prop} (h : ∀ a < 2, ∀ p < N, P (a * N + p)) : ∀ r < 2 * N, P r := by
  intro r hr
  by_cases h0 : r < N
  · simpa using h 0 (by omega) r h0
  · have := h 1 (by omega) (r - N) (by omega)
    rwa [Nat.one_mul, Nat.add_sub_cancel' (by omega)] at this

/-- The numbers of elements and sides are in range and no triangle is degenerate. -/
structure Spec.SupportedMesh.Good (m : SupportedMesh K) : Prop where
  valid : ValidElements 2 m.count m.elements
  nondegenerate : Nondegenerate2 m.elements m.nodes
  sides : ValidSides m.count m.sides

/-- `u` is the displacement which `StaticSolver.solve` returns for a problem on the mesh with the force
`c` per area, the force `q` per length of the loaded sides and the supported nodes fixed; `f` are the
loads of the nodes. -/
def Spec.StaticOn (sqrt : K → K) (m : SupportedMesh K) (mu lam : K) (c q f u : ℕ → K) : Prop :=
  ∃ e : Engine K, PlaneBody e m.count m.elements m.nodes mu lam ∧ e.ops.force 0 = f ∧
    integrateForces sqrt 2 m.count (basicMatrices2 m.elements m.nodes).volumeAtNodes m.sides m.nodes
      (fun _ => c) (fun _ => q) = some f ∧
    StaticResult e (fun r => r < 2 * m.count ∧ m.supported (r % m.count)) (fun _ => 0) u

/-- C104: of two static problems with the same material, the same constant forces per area and per
length and fixed supports, the one on the refined mesh yields at least as much: the loads do at least as
much work, by the energy of the difference of the displacements. -/
theorem C104_static {m m' : SupportedMesh K} (hr : Refines parent m.nodes m.elements m'.nodes m'.elements)
    (hm : m.Good) (hm' : m'.Good) (sqrt : K → K) (hc : Carries (surfaceSize sqrt 2) parent m m')
    (mu lam : K) (hmu : 0 ≤ mu) (hlam : 0 ≤ lam) (c q f f' u u' : ℕ → K)
    (h : StaticOn sqrt m mu lam c q f u) (h' : StaticOn sqrt m' mu lam c q f' u') :
    (∃ y : ℕ → K, (∀ a < 2, SameFunction parent m.nodes m.elements m'.nodes m'.elements
        (component m.count u a) (component m'.count y a)) ∧
      work (2 * m'.count) f' u' = work (2 * m.count) f u +
        quad (2 * m'.count) (Plane.constitutive m'.count (basicMatrices2 m'.elements m'.nodes).W mu lam)
          fun r => u' r - y r) ∧
    0 ≤ work (2 * m.count) f u ∧ work (2 * m.count) f u ≤ work (2 * m'.count) f' u' := by
  obtain ⟨e, hb, rfl, hf, h⟩ := h
  obtain ⟨e', hb', rfl, hf', h'⟩ := h'
  have eq := plane_equilibrium h hb
  have eq' := plane_equilibrium h' hb'
  have hmod : ∀ {N : ℕ} (a : ℕ) {p : ℕ}, p < N → (a * N + p) % N = p := fun a p hp => by
    rw [Nat.mul_comm, Nat.mul_add_mod, Nat.mod_eq_of_lt hp]
  obtain ⟨y, y1, y2, y3⟩ := hc.vector hm'.valid hm'.sides (x := u) fun a ha p hp hS =>
    eq.values (a * m.count + p) (by nlinarith) ⟨by nlinarith, by rw [hmod a hp]; exact hS⟩
  have := C104_nested (D := fun r => r < 2 * m.count ∧ m.supported (r % m.count))
    (D' := fun r => r < 2 * m'.count ∧ m'.supported (r % m'.count))
    (storesEnergy_of_form (C26_symmetric hm'.valid hm'.nondegenerate mu lam)
      (C26_nonneg hm'.valid hm'.nondegenerate mu lam hmu hlam))
    (hr.elastic hm.valid hm.nondegenerate hm'.valid hm'.nondegenerate mu lam y1)
    (f := e.ops.force 0) (f' := e'.ops.force 0) ?_
    (dof_split fun a ha p hp hS => y2 a ha p hp (by rw [hmod a hp] at hS; exact hS.2)) eq eq'
  · exact ⟨⟨y, y1, this.1⟩, this.2⟩
  · rw [integrated_work hm.valid hm.nondegenerate hm.sides hf,
      integrated_work hm'.valid hm'.nondegenerate hm'.sides hf']
    refine Finset.sum_congr rfl fun a ha => ?_
    have ha := Finset.mem_range.1 ha
    rw [(y1 a ha).integral hm.nondegenerate hr, y3 a ha]

/-- `T` is the temperature which `PoissonSolver.solve` returns for a problem on the mesh with the heat
`c` per area, the heat `q` per length of the loaded sides and the temperature zero at the supported
nodes; `f` are the loads of the nodes. -/
def Spec.PoissonOn (sqrt : K → K) (m : SupportedMesh K) (k c q : K) (f T : ℕ → K) : Prop :=
  ∃ e : Engine K, e.ops.nodesCount = m.count ∧
    e.ops.poisson = poissonMatrix 2 (basicMatrices2 m.elements m.nodes).W k ∧
    e.ops.bodyTemperature 0 = f ∧
    integrateForces sqrt 2 m.count (basicMatrices2 m.elements m.nodes).volumeAtNodes m.sides m.nodes
      (fun _ _ => c) (fun _ _ => q) = some f ∧
    PoissonResult e (fun r => r < m.count ∧ m.supported r) (fun _ => 0) T

/-- C104 for the Poisson equation with constant heat sources. -/
theorem C104_poisson {m m' : SupportedMesh K} (hr : Refines parent m.nodes m.elements m'.nodes m'.elements)
    (hm : m.Good) (hm' : m'.Good) (sqrt : K → K) (hc : Carries (surfaceSize sqrt 2) parent m m')
    (k c q : K) (f f' T T' : ℕ → K) (h : PoissonOn sqrt m k c q f T) (h' : PoissonOn sqrt m' k c q f' T') :
    (∃ y : ℕ → K, SameFunction parent m.nodes m.elements m'.nodes m'.elements T y ∧
      work m'.count f' T' = work m.count f T +
        quad m'.count (poissonMatrix 2 (basicMatrices2 m'.elements m'.nodes).W k) fun r => T' r - y r) ∧
    0 ≤ work m.count f T ∧ work m.count f T ≤ work m'.count f' T' := by
  obtain ⟨e, hN, hp, rfl, hf, h⟩ := h
  obtain ⟨e', hN', hp', rfl, hf', h'⟩ := h'
  have eq := poisson_equilibrium h
  have eq' := poisson_equilibrium h'
  rw [hN, hp] at eq
  rw [hN', hp'] at eq'
  obtain ⟨y, y1, y2, y3⟩ := hc T fun p hp hS => eq.values p hp ⟨hp, hS⟩
  obtain ⟨s1, -, s2, -⟩ := C25_poisson2 hm'.valid hm'.nondegenerate k
  have := C104_nested (D := fun r => r < m.count ∧ m.supported r) (D' := fun r => r < m'.count ∧ m'.supported r)
    (storesEnergy_of_form s1 s2)
    (hr.poisson hm.valid hm.nondegenerate hm'.valid hm'.nondegenerate k y1)
    (f := e.ops.bodyTemperature 0) (f' := e'.ops.bodyTemperature 0) ?_ (fun r hr hS => y2 r hr hS.2) eq eq'
  · exact ⟨⟨y, y1, this.1⟩, this.2⟩
  · have w := integrated_coordinate hm.valid hm.nondegenerate hm.sides hf 0 T
    have w' := integrated_coordinate hm'.valid hm'.nondegenerate hm'.sides hf' 0 y
    rw [y1.integral hm.nondegenerate hr, y3, ← w] at w'
    simpa only [work, Nat.zero_mul, Nat.zero_add] using w'

end
end Conmech
